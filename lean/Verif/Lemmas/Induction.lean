import Verif.Model.Bem
import Mathlib.Tactic.Ring
import Mathlib.Tactic.Linarith
import Mathlib.Tactic.FieldSimp
import Mathlib.Tactic.Positivity
import Mathlib.Tactic.NormNum

/-! # Auxiliary lemmas on the Buhl correction -/

namespace Verif

theorem buhlG1_real (F k : ℝ) : buhlG1 F k = 2 * F * k - (10 / 9 - F) := by simp only [buhlG1, num_real]; push_cast; ring
theorem buhlG2_real (F k : ℝ) : buhlG2 F k = 2 * F * k - (4 / 3 - F) * F := by
  simp only [buhlG2, num_real]; push_cast; ring
theorem buhlG3_real (F k : ℝ) : buhlG3 F k = 2 * F * k - (25 / 9 - 2 * F) := by
  simp only [buhlG3, num_real]; push_cast; ring

theorem buhlG2_pos {F k : ℝ} (hF : 0 < F) (hk : 2 / 3 < k) : F ^ 2 < buhlG2 F k := by
  rw [buhlG2_real]
  nlinarith [mul_pos hF (sub_pos.mpr hk)]

theorem buhlG2_eq (F k : ℝ) : buhlG2 F k = buhlG3 F k + (5 / 3 - F) ^ 2 := by
  rw [buhlG2_real, buhlG3_real]; ring

theorem lt_sqrt_buhlG2 {F k : ℝ} (hF : 0 < F) (hk : 2 / 3 < k) : F < Real.sqrt (buhlG2 F k) := by
  rw [Real.lt_sqrt hF.le]
  exact buhlG2_pos hF hk

/-- The Buhl root in a form without singularity. -/
theorem buhl_closed {F k : ℝ} (hF : 0 < F) (hk : 2 / 3 < k) (h3 : buhlG3 F k ≠ 0) :
    (buhlG1 F k - Real.sqrt (buhlG2 F k)) / buhlG3 F k = 1 - 1 / (Real.sqrt (buhlG2 F k) + (5 / 3 - F)) := by
  have hw : 0 < Real.sqrt (buhlG2 F k) + (5 / 3 - F) := by
    have := lt_sqrt_buhlG2 hF hk
    linarith
  have hsq : Real.sqrt (buhlG2 F k) ^ 2 = buhlG3 F k + (5 / 3 - F) ^ 2 := by
    rw [Real.sq_sqrt (le_trans (sq_nonneg F) (buhlG2_pos hF hk).le), buhlG2_eq]
  have h1 : buhlG1 F k = buhlG3 F k + (5 / 3 - F) := by rw [buhlG1_real, buhlG3_real]; ring
  rw [h1, div_eq_iff h3]
  have e : buhlG3 F k = (Real.sqrt (buhlG2 F k) - (5 / 3 - F)) * (Real.sqrt (buhlG2 F k) + (5 / 3 - F)) := by
    linear_combination (-1 : ℝ) * hsq
  have e2 : 1 / (Real.sqrt (buhlG2 F k) + (5 / 3 - F)) * buhlG3 F k = Real.sqrt (buhlG2 F k) - (5 / 3 - F) := by
    rw [e, one_div, mul_comm, mul_assoc, mul_inv_cancel₀ hw.ne', mul_one]
  rw [sub_mul, e2]
  ring

/-- The axial induction factor at positive inflow angle. -/
theorem axial_momentum {phi k F : ℝ} (hphi : 0 < phi) (hk : k ≤ 2 / 3) : axialInduction phi k F = k / (1 + k) := by
  have h : k ≤ (Num.nat 2 / Num.nat 3 : ℝ) := by simpa [num_real] using hk
  simp [axialInduction, hphi, h]

theorem axial_buhl {phi k F : ℝ} (hphi : 0 < phi) (hF : 0 < F) (hk : 2 / 3 < k)
    (h3 : 1 / 1000000 ≤ |buhlG3 F k|) :
    axialInduction phi k F = 1 - 1 / (Real.sqrt (buhlG2 F k) + (5 / 3 - F)) := by
  have h : ¬ k ≤ (Num.nat 2 / Num.nat 3 : ℝ) := by simpa [num_real] using hk
  have h' : ¬ nabs (buhlG3 F k) < (Num.nat 1 / Num.nat 1000000 : ℝ) := by
    simp only [num_real]
    push_cast
    linarith
  have h0 : buhlG3 F k ≠ 0 := by
    intro h0
    rw [h0, abs_zero] at h3
    norm_num at h3
  simp only [axialInduction, hphi, if_true, h, if_false, h', real_sqrt]
  exact buhl_closed hF hk h0

theorem axial_guard {phi k F : ℝ} (hphi : 0 < phi) (hk : 2 / 3 < k)
    (h3 : |buhlG3 F k| < 1 / 1000000) :
    axialInduction phi k F = 1 - 1 / 2 / Real.sqrt (buhlG2 F k) := by
  have h : ¬ k ≤ (Num.nat 2 / Num.nat 3 : ℝ) := by simpa [num_real] using hk
  have h' : nabs (buhlG3 F k) < (Num.nat 1 / Num.nat 1000000 : ℝ) := by
    simp only [num_real]
    push_cast
    linarith
  simp only [axialInduction, hphi, if_true, h, if_false, h', real_sqrt]
  norm_num [num_real]

end Verif
