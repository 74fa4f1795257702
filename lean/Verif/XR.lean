import Verif.Num
import Mathlib.Analysis.Real.Pi.Bounds

/-!
# Reals with infinities and NaN

A second scalar instance, for statements about NaN.  Values are those of exact real arithmetic where that is defined; division by
zero, functions outside their domain and undefined combinations of infinities behave as in IEEE 754.  Differences from doubles: no
rounding, one unsigned zero (`x / 0` has the sign of `x`), and `pow`, `atan2` of special values, which the theorems do not use.
The constant `pi` is the double nearest to π, so that `cos(pi/2)` is not zero, as in the compiled code.
-/

namespace Verif

/-- A real number, an infinity or NaN. -/
inductive XR where
  | nan
  | pinf
  | ninf
  | fin (x : ℝ)

namespace XR

/-- Infinity with the sign of `x`, NaN for zero. -/
noncomputable def infOf (x : ℝ) : XR := if 0 < x then pinf else if x < 0 then ninf else nan

noncomputable def neg : XR → XR
  | nan => nan
  | pinf => ninf
  | ninf => pinf
  | fin x => fin (-x)

noncomputable def add : XR → XR → XR
  | fin x, fin y => fin (x + y)
  | nan, _ => nan
  | _, nan => nan
  | pinf, ninf => nan
  | ninf, pinf => nan
  | pinf, _ => pinf
  | _, pinf => pinf
  | ninf, _ => ninf
  | _, ninf => ninf

noncomputable def mul : XR → XR → XR
  | fin x, fin y => fin (x * y)
  | nan, _ => nan
  | _, nan => nan
  | pinf, pinf => pinf
  | pinf, ninf => ninf
  | ninf, pinf => ninf
  | ninf, ninf => pinf
  | pinf, fin x => infOf x
  | fin x, pinf => infOf x
  | ninf, fin x => infOf (-x)
  | fin x, ninf => infOf (-x)

noncomputable def div : XR → XR → XR
  | nan, _ => nan
  | _, nan => nan
  | fin x, fin y => if y = 0 then infOf x else fin (x / y)
  | fin _, pinf => fin 0
  | fin _, ninf => fin 0
  | pinf, fin y => if y < 0 then ninf else pinf
  | ninf, fin y => if y < 0 then pinf else ninf
  | _, _ => nan

/-- Comparisons are false for NaN. -/
def lt : XR → XR → Prop
  | fin x, fin y => x < y
  | fin _, pinf => True
  | ninf, fin _ => True
  | ninf, pinf => True
  | _, _ => False

def le : XR → XR → Prop
  | fin x, fin y => x ≤ y
  | fin _, pinf => True
  | ninf, fin _ => True
  | ninf, pinf => True
  | pinf, pinf => True
  | ninf, ninf => True
  | _, _ => False

open Classical in
noncomputable def beq : XR → XR → Bool
  | fin x, fin y => decide (x = y)
  | pinf, pinf => true
  | ninf, ninf => true
  | _, _ => false

/-- A function of a real that is NaN at infinity -/
noncomputable def lift (f : ℝ → XR) : XR → XR
  | fin x => f x
  | _ => nan

noncomputable def exp : XR → XR
  | fin x => fin (Real.exp x)
  | pinf => pinf
  | ninf => fin 0
  | nan => nan

noncomputable def log : XR → XR
  | fin x => if 0 < x then fin (Real.log x) else if x = 0 then ninf else nan
  | pinf => pinf
  | _ => nan

noncomputable def sqrt : XR → XR
  | fin x => if 0 ≤ x then fin (Real.sqrt x) else nan
  | pinf => pinf
  | _ => nan

noncomputable def acos : XR → XR := lift fun x => if -1 ≤ x ∧ x ≤ 1 then fin (Real.arccos x) else nan

/-- The double nearest to π -/
noncomputable def dpi : ℝ := 884279719003555 / 281474976710656

def isNaN : XR → Bool
  | nan => true
  | _ => false

end XR

open XR in
noncomputable instance : Num XR where
  zero := fin 0
  one := fin 1
  add := XR.add
  sub x y := XR.add x (XR.neg y)
  mul := XR.mul
  div := XR.div
  neg := XR.neg
  lt := XR.lt
  le := XR.le
  beq := XR.beq
  decLt := Classical.decRel _
  decLe := Classical.decRel _
  nat n := fin n
  pi := fin dpi
  sin := lift fun x => fin (Real.sin x)
  cos := lift fun x => fin (Real.cos x)
  acos := XR.acos
  exp := XR.exp
  log := XR.log
  sqrt := XR.sqrt
  atan2
    | fin y, fin x => fin (Complex.arg ⟨x, y⟩)
    | _, _ => nan
  pow
    | fin x, fin y => if 0 < x then fin (x ^ y) else nan
    | _, _ => nan
  floor
    | fin x => fin ⌊x⌋
    | x => x
  trunc
    | fin x => if 0 ≤ x then ⌊x⌋ else ⌈x⌉
    | _ => 0
  isNaN := XR.isNaN

/-- The behaviour of NaN in IEEE arithmetic: operations propagate it, comparisons with it are false, and `acos` of a number above one
is NaN. -/
structure NaNLaws (α : Type) [Num α] : Prop where
  add_left : ∀ x y : α, Num.isNaN x → Num.isNaN (x + y)
  add_right : ∀ x y : α, Num.isNaN y → Num.isNaN (x + y)
  sub_left : ∀ x y : α, Num.isNaN x → Num.isNaN (x - y)
  sub_right : ∀ x y : α, Num.isNaN y → Num.isNaN (x - y)
  mul_left : ∀ x y : α, Num.isNaN x → Num.isNaN (x * y)
  mul_right : ∀ x y : α, Num.isNaN y → Num.isNaN (x * y)
  div_left : ∀ x y : α, Num.isNaN x → Num.isNaN (x / y)
  div_right : ∀ x y : α, Num.isNaN y → Num.isNaN (x / y)
  lt_left : ∀ x y : α, Num.isNaN x → ¬ x < y
  lt_right : ∀ x y : α, Num.isNaN y → ¬ x < y
  le_left : ∀ x y : α, Num.isNaN x → ¬ x ≤ y
  le_right : ∀ x y : α, Num.isNaN y → ¬ x ≤ y
  acos_gt : ∀ x : α, 1 < x → Num.isNaN (Num.acos x)
  acos_nan : ∀ x : α, Num.isNaN x → Num.isNaN (Num.acos x)

namespace XR

theorem nan_add (y : XR) : nan + y = nan := by cases y <;> rfl
theorem add_nan (x : XR) : x + nan = nan := by cases x <;> rfl
theorem nan_sub (y : XR) : nan - y = nan := by cases y <;> rfl
theorem sub_nan (x : XR) : x - nan = nan := by cases x <;> rfl
theorem nan_mul (y : XR) : nan * y = nan := by cases y <;> rfl
theorem mul_nan (x : XR) : x * nan = nan := by cases x <;> rfl
theorem nan_div (y : XR) : nan / y = nan := by cases y <;> rfl
theorem div_nan (x : XR) : x / nan = nan := by cases x <;> rfl

@[simp] theorem isNaN_iff (x : XR) : Num.isNaN x = true ↔ x = nan := by
  cases x <;> simp [Num.isNaN, isNaN]

theorem fin_add (x y : ℝ) : fin x + fin y = fin (x + y) := rfl
theorem fin_sub (x y : ℝ) : fin x - fin y = fin (x - y) := by
  show fin (x + -y) = _
  rw [sub_eq_add_neg]
theorem fin_mul (x y : ℝ) : fin x * fin y = fin (x * y) := rfl
theorem fin_div (x y : ℝ) (h : y ≠ 0) : fin x / fin y = fin (x / y) := by
  show (if y = 0 then infOf x else fin (x / y)) = _
  rw [if_neg h]
theorem fin_neg (x : ℝ) : -fin x = fin (-x) := rfl
theorem fin_lt (x y : ℝ) : fin x < fin y ↔ x < y := Iff.rfl
theorem fin_le (x y : ℝ) : fin x ≤ fin y ↔ x ≤ y := Iff.rfl
theorem zero_eq : (0 : XR) = fin 0 := rfl
theorem one_eq : (1 : XR) = fin 1 := rfl
theorem nat_eq (n : ℕ) : (Num.nat n : XR) = fin n := rfl
theorem pi_eq : (Num.pi : XR) = fin dpi := rfl
theorem sin_fin (x : ℝ) : Num.sin (fin x) = fin (Real.sin x) := rfl
theorem cos_fin (x : ℝ) : Num.cos (fin x) = fin (Real.cos x) := rfl
theorem exp_fin (x : ℝ) : Num.exp (fin x) = fin (Real.exp x) := rfl
theorem sqrt_fin (x : ℝ) (h : 0 ≤ x) : Num.sqrt (fin x) = fin (Real.sqrt x) := by
  show (if 0 ≤ x then fin (Real.sqrt x) else nan) = _
  rw [if_pos h]
theorem acos_fin (x : ℝ) (h : -1 ≤ x) (h' : x ≤ 1) : Num.acos (fin x) = fin (Real.arccos x) := by
  show (if -1 ≤ x ∧ x ≤ 1 then fin (Real.arccos x) else nan) = _
  rw [if_pos ⟨h, h'⟩]

theorem nanLaws : NaNLaws XR where
  add_left x y h := by simp only [isNaN_iff] at *; rw [h, nan_add]
  add_right x y h := by simp only [isNaN_iff] at *; rw [h, add_nan]
  sub_left x y h := by simp only [isNaN_iff] at *; rw [h, nan_sub]
  sub_right x y h := by simp only [isNaN_iff] at *; rw [h, sub_nan]
  mul_left x y h := by simp only [isNaN_iff] at *; rw [h, nan_mul]
  mul_right x y h := by simp only [isNaN_iff] at *; rw [h, mul_nan]
  div_left x y h := by simp only [isNaN_iff] at *; rw [h, nan_div]
  div_right x y h := by simp only [isNaN_iff] at *; rw [h, div_nan]
  lt_left x y h := by
    simp only [isNaN_iff] at h
    subst h
    exact id
  lt_right x y h := by
    simp only [isNaN_iff] at h
    subst h
    cases x <;> exact id
  le_left x y h := by
    simp only [isNaN_iff] at h
    subst h
    exact id
  le_right x y h := by
    simp only [isNaN_iff] at h
    subst h
    cases x <;> exact id
  acos_gt x h := by
    simp only [isNaN_iff]
    cases x with
    | fin x =>
      have h1 : (1 : ℝ) < x := h
      show (if -1 ≤ x ∧ x ≤ 1 then fin (Real.arccos x) else nan) = _
      rw [if_neg (fun h' => by linarith [h'.2])]
    | _ => rfl
  acos_nan x h := by
    simp only [isNaN_iff] at *
    subst h
    rfl

theorem dpi_lt : dpi < Real.pi := by
  have := Real.pi_gt_d20
  unfold dpi
  norm_num at this ⊢
  linarith

theorem lt_dpi : Real.pi - 1 / 1000000000000000 < dpi := by
  have := Real.pi_lt_d20
  unfold dpi
  norm_num at this ⊢
  linarith

end XR

end Verif
