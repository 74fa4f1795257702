import Verif.Props.Induction
import Verif.Model.CCBlade
import Mathlib.Analysis.SpecialFunctions.Trigonometric.Bounds

/-! # Signs of the residual -/

namespace Verif

/-- `1/(1-a)` is bounded below in the Buhl state. -/
theorem inv_axial_buhl {phi k F : ℝ} (hphi : 0 < phi) (hF : 0 < F) (hF1 : F ≤ 5 / 4) (hk : 2 / 3 < k) :
    Real.sqrt (2 * F * k - (4 / 3 - F) * F) ≤ 1 / (1 - axialInduction phi k F) ∧ 5 / 8 ≤ 1 / (1 - axialInduction phi k F) := by
  have hw := lt_sqrt_buhlG2 hF hk
  have h0 : 0 ≤ buhlG2 F k := le_trans (sq_nonneg F) (buhlG2_pos hF hk).le
  have hsq := Real.sq_sqrt h0
  rw [← buhlG2_real]
  rcases lt_or_ge (|buhlG3 F k|) (1 / 1000000) with h3 | h3
  · rw [axial_guard hphi hk h3]
    have e : 1 / (1 - (1 - 1 / 2 / Real.sqrt (buhlG2 F k))) = 2 * Real.sqrt (buhlG2 F k) := by
      have : Real.sqrt (buhlG2 F k) ≠ 0 := by linarith
      field_simp
      ring
    rw [e]
    refine ⟨by linarith, ?_⟩
    have h4 := (abs_lt.1 h3).1
    rw [buhlG2_eq] at hsq
    rw [← buhlG2_eq] at hsq
    nlinarith [buhlG2_eq F k]
  · rw [axial_buhl hphi hF hk h3]
    have e : 1 / (1 - (1 - 1 / (Real.sqrt (buhlG2 F k) + (5 / 3 - F)))) = Real.sqrt (buhlG2 F k) + (5 / 3 - F) := by
      rw [sub_sub_cancel, one_div_one_div]
    rw [e]
    constructor <;> linarith

/-- In the momentum state `1/(1-a) = 1+k`. -/
theorem inv_axial_momentum {phi k F : ℝ} (hphi : 0 < phi) (hk : k ≤ 2 / 3) (h1 : k ≠ -1) :
    1 / (1 - axialInduction phi k F) = 1 + k := by
  rw [axial_momentum hphi hk]
  have : 1 + k ≠ 0 := fun h => h1 (by linarith)
  field_simp
  ring

/-- Loaded sections speed the inflow up: `1/(1-a) ≥ 5/8` -/
theorem inv_axial_gt {phi k F : ℝ} (hphi : 0 < phi) (hF : 0 < F) (hF1 : F ≤ 5 / 4) (hk : 0 ≤ k) :
    5 / 8 ≤ 1 / (1 - axialInduction phi k F) := by
  rcases le_or_gt k (2 / 3) with h | h
  · rw [inv_axial_momentum hphi h (by linarith)]
    linarith
  · linarith [(inv_axial_buhl hphi hF hF1 h).2]

/-- The residual of a section of solidity 1/10 with unit normal force coefficient is positive at the local speed ratio 10. -/
theorem loaded_pos {phi s c F k : ℝ} (hphi : 0 < phi) (hs : 0 < s) (hc : 0 < c) (hc1 : c ≤ 1) (hF : 0 < F) (hF1 : F ≤ 5 / 4)
    (hk : k = c / (40 * F * s ^ 2)) : c / 10 < s * (1 / (1 - axialInduction phi k F)) := by
  have hk0 : 0 < k := by rw [hk]; positivity
  rcases le_or_gt (c * (33 / 200)) s with h | h
  · nlinarith [inv_axial_gt (phi := phi) hphi hF hF1 hk0.le]
  · have hk2 : 2 / 3 < k := by
      rw [hk, div_lt_div_iff₀ (by norm_num) (by positivity)]
      have h4 : s ^ 2 < c ^ 2 * (33 / 200) ^ 2 := by nlinarith
      have h5 : F * s ^ 2 ≤ 5 / 4 * (c ^ 2 * (33 / 200) ^ 2) := by gcongr
      nlinarith
    have hb := (inv_axial_buhl hphi hF hF1 hk2).1
    have h2 : s ^ 2 * (2 * F * k) = c / 20 := by
      rw [hk]
      field_simp
      ring
    have h3 : c / 10 < s * Real.sqrt (2 * F * k - (4 / 3 - F) * F) := by
      rw [← Real.sqrt_sq hs.le, ← Real.sqrt_mul (sq_nonneg s)]
      rw [Real.lt_sqrt (by positivity)]
      have h4 : s ^ 2 < c ^ 2 * (33 / 200) ^ 2 := by nlinarith
      have h5 : (4 / 3 - F) * F ≤ 4 / 9 := by nlinarith [sq_nonneg (F - 2 / 3)]
      have h6 : s ^ 2 * ((4 / 3 - F) * F) ≤ s ^ 2 * (4 / 9) := by gcongr
      nlinarith
    nlinarith

end Verif
