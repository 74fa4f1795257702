import Mathlib.Data.Real.Basic
import Mathlib.Analysis.SpecialFunctions.Trigonometric.Basic
import Mathlib.Analysis.SpecialFunctions.Trigonometric.Inverse
import Mathlib.Analysis.SpecialFunctions.Complex.Arg
import Mathlib.Analysis.SpecialFunctions.Pow.Real
import Mathlib.Algebra.BigOperators.Intervals
import Mathlib.Algebra.Order.Floor.Ring
import Verif.NumAttr

/-!
# Scalars

The Python and Fortran sources compute with IEEE doubles.  The model is polymorphic in a scalar type carrying the
operations the sources use.  The class has *operations only*, no laws: theorems proved for every `Num α` hold for
doubles as well, theorems about values are proved for the instance `Num ℝ` (exact arithmetic).
-/

namespace Verif

/-- The scalar operations used by the sources (numpy / Fortran intrinsics). -/
class Num (α : Type) extends Zero α, One α, Add α, Sub α, Mul α, Div α, Neg α, LT α, LE α, BEq α where
  decLt : DecidableLT α
  decLe : DecidableLE α
  /-- integer constants; decimal constants of the sources are written as quotients `nat m / nat n` -/
  nat : ℕ → α
  pi : α
  sin : α → α
  cos : α → α
  acos : α → α
  exp : α → α
  log : α → α
  sqrt : α → α
  /-- `atan2 y x` -/
  atan2 : α → α → α
  /-- `x ** y` for a non-literal exponent -/
  pow : α → α → α
  floor : α → α
  /-- Python `int(x)`: truncation towards zero -/
  trunc : α → ℤ
  isNaN : α → Bool

attribute [instance low] Num.toZero Num.toOne Num.toAdd Num.toSub Num.toMul Num.toDiv Num.toNeg
  Num.toLT Num.toLE Num.toBEq
attribute [instance_reducible] Num.decLt Num.decLe
attribute [instance low] Num.decLt Num.decLe

section generic
variable {α : Type} [Num α]

/-- `abs(x)` -/
def nabs (x : α) : α := if x < 0 then -x else x

/-- Python `max(a, b)`: the first argument unless the second is larger -/
def nmax (a b : α) : α := if a < b then b else a

/-- Python `min(a, b)`: the first argument unless the second is smaller -/
def nmin (a b : α) : α := if b < a then b else a

/-- `x ** 2` -/
def sq (x : α) : α := x * x

/-- `np.deg2rad`, `np.radians` -/
def deg2rad (x : α) : α := x * (Num.pi / Num.nat 180)

/-- `np.rad2deg`, `np.degrees` -/
def rad2deg (x : α) : α := x * (Num.nat 180 / Num.pi)

/-- Left-to-right summation loop `acc = 0; for i in range(n): acc = acc + f(i)`. -/
def sumTo : ℕ → (ℕ → α) → α
  | 0, _ => 0
  | n + 1, f => sumTo n f + f n

end generic

/-- Exact real arithmetic. -/
noncomputable instance : Num ℝ where
  beq a b := decide (a = b)
  decLt := inferInstance
  decLe := inferInstance
  nat n := (n : ℝ)
  pi := Real.pi
  sin := Real.sin
  cos := Real.cos
  acos := Real.arccos
  exp := Real.exp
  log := Real.log
  sqrt := Real.sqrt
  atan2 y x := Complex.arg ⟨x, y⟩
  pow x y := x ^ y
  floor x := (⌊x⌋ : ℝ)
  trunc x := if 0 ≤ x then ⌊x⌋ else ⌈x⌉
  isNaN _ := false

/-- Compiled IEEE doubles; only used to execute the model. -/
instance : Num Float where
  zero := 0
  one := 1
  decLt := inferInstance
  decLe := inferInstance
  nat n := Float.ofNat n
  pi := 3.141592653589793
  sin := Float.sin
  cos := Float.cos
  acos := Float.acos
  exp := Float.exp
  log := Float.log
  sqrt := Float.sqrt
  atan2 := Float.atan2
  pow := Float.pow
  floor := Float.floor
  trunc x := if x < 0 then -(Float.floor (-x)).toUInt64.toNat else (Float.floor x).toUInt64.toNat
  isNaN := Float.isNaN

section real

@[num_real] theorem real_nat (n : ℕ) : (Num.nat n : ℝ) = (n : ℝ) := rfl
@[num_real] theorem real_pi : (Num.pi : ℝ) = Real.pi := rfl
@[num_real] theorem real_sin (x : ℝ) : Num.sin x = Real.sin x := rfl
@[num_real] theorem real_cos (x : ℝ) : Num.cos x = Real.cos x := rfl
@[num_real] theorem real_acos (x : ℝ) : Num.acos x = Real.arccos x := rfl
@[num_real] theorem real_exp (x : ℝ) : Num.exp x = Real.exp x := rfl
@[num_real] theorem real_log (x : ℝ) : Num.log x = Real.log x := rfl
@[num_real] theorem real_sqrt (x : ℝ) : Num.sqrt x = Real.sqrt x := rfl
@[num_real] theorem real_atan2 (y x : ℝ) : Num.atan2 y x = Complex.arg ⟨x, y⟩ := rfl
@[num_real] theorem real_pow (x y : ℝ) : Num.pow x y = x ^ y := rfl
@[num_real] theorem real_floor (x : ℝ) : Num.floor x = (⌊x⌋ : ℝ) := rfl
@[num_real] theorem real_trunc (x : ℝ) : Num.trunc x = if 0 ≤ x then ⌊x⌋ else ⌈x⌉ := rfl
@[num_real] theorem real_isNaN (x : ℝ) : Num.isNaN x = false := rfl
@[num_real] theorem real_beq (x y : ℝ) : (@BEq.beq ℝ Num.toBEq x y) = decide (x = y) := rfl
@[num_real] theorem real_sq (x : ℝ) : sq x = x ^ 2 := by simp [sq, pow_two]
@[num_real] theorem real_deg2rad (x : ℝ) : deg2rad x = x * (Real.pi / 180) := by
  simp [deg2rad, num_real]
@[num_real] theorem real_rad2deg (x : ℝ) : rad2deg x = x * (180 / Real.pi) := by
  simp [rad2deg, num_real]
@[num_real] theorem real_nabs (x : ℝ) : nabs x = |x| := by
  unfold nabs
  split_ifs with h
  · exact (abs_of_neg h).symm
  · exact (abs_of_nonneg (not_lt.mp h)).symm
@[num_real] theorem real_nmax (x y : ℝ) : nmax x y = max x y := by
  unfold nmax
  split_ifs with h
  · exact (max_eq_right (le_of_lt h)).symm
  · exact (max_eq_left (not_lt.mp h)).symm
@[num_real] theorem real_nmin (x y : ℝ) : nmin x y = min x y := by
  unfold nmin
  split_ifs with h
  · exact (min_eq_right (le_of_lt h)).symm
  · exact (min_eq_left (not_lt.mp h)).symm
@[num_real] theorem real_sumTo (n : ℕ) (f : ℕ → ℝ) : sumTo n f = ∑ i ∈ Finset.range n, f i := by
  induction n with
  | zero => simp [sumTo]
  | succ n ih => rw [sumTo, ih, Finset.sum_range_succ]

end real

end Verif
