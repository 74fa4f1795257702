import Verif.XR
import Verif.Lemmas.Bracket

/-! # NaN in the residual; finite values of the residual -/

namespace Verif

section laws
variable {α : Type} [Num α]

/-- A NaN loss factor makes the residual NaN. -/
theorem residual_nan_of_loss (L : NaNLaws α) (phi sphi cphi sigma cn F kp Vx Vy : α) (hF : Num.isNaN F) :
    Num.isNaN (bemResidual phi sphi cphi (axialInduction phi (bemK sigma cn F sphi) F) (bemK sigma cn F sphi) kp Vx Vy) := by
  have hk : Num.isNaN (bemK sigma cn F sphi) := L.div_left _ _ (L.div_left _ _ (L.div_right _ _ hF))
  unfold bemResidual
  split
  · apply L.sub_left
    apply L.div_right
    apply L.sub_right
    unfold axialInduction
    rw [if_pos ‹_›, if_neg (L.le_left _ _ hk)]
    have hg3 : Num.isNaN (buhlG3 F (bemK sigma cn F sphi)) := L.sub_left _ _ (L.mul_right _ _ hk)
    have habs : Num.isNaN (nabs (buhlG3 F (bemK sigma cn F sphi))) := by
      unfold nabs
      rw [if_neg (L.lt_left _ _ hg3)]
      exact hg3
    simp only
    rw [if_neg (L.lt_left _ _ habs)]
    exact L.div_right _ _ hg3
  · apply L.sub_left
    apply L.mul_right
    apply L.sub_right
    exact hk

/-- The argument of the arc cosine in the tip or hub loss factor exceeds one. -/
def LossAboveOne (o : BemOpts) (B : ℕ) (r Rhub Rtip phi : α) : Prop :=
  (o.tipLoss = true ∧ 1 < Num.exp (-(Num.nat B / Num.nat 2 * (Rtip - r) / (r * Num.sin phi)))) ∨
  (o.hubLoss = true ∧ 1 < Num.exp (-(Num.nat B / Num.nat 2 * (r - Rhub) / (Rhub * Num.sin phi))))

theorem inductionFactors_nan (L : NaNLaws α) (r chord Rhub Rtip phi cl cd : α) (B : ℕ) (Vx Vy : α) (o : BemOpts)
    (h : LossAboveOne o B r Rhub Rtip phi) : Num.isNaN (inductionFactors r chord Rhub Rtip phi cl cd B Vx Vy o).fzero := by
  unfold inductionFactors
  apply residual_nan_of_loss L
  rcases h with ⟨ho, h⟩ | ⟨ho, h⟩
  · apply L.mul_left
    rw [tipFactor, if_pos ho]
    exact L.mul_right _ _ (L.acos_gt _ h)
  · apply L.mul_right
    rw [hubFactor, if_pos ho]
    exact L.mul_right _ _ (L.acos_gt _ h)

theorem errFun_nan (L : NaNLaws α) (R : Rotor α) (pitch : α) (x : Sec α) (phi : α)
    (h : LossAboveOne R.opts R.B x.r R.Rhub R.Rtip phi) : Num.isNaN (errFun R pitch x phi) := by
  have hp : ∀ (k : ℕ) (o : BemOut α), Num.isNaN o.fzero → Num.isNaN (bemPasses R pitch phi x k o).fzero := by
    intro k
    induction k with
    | zero => intro o ho; exact ho
    | succ k ih => intro o _; exact ih _ (inductionFactors_nan L _ _ _ _ _ _ _ _ _ _ _ h)
  exact hp _ _ (inductionFactors_nan L _ _ _ _ _ _ _ _ _ _ _ h)

end laws

namespace XR

theorem div_pos_neg {x y : ℝ} (hx : 0 < x) (hy : y < 0) : x / y < 0 := div_neg_of_pos_of_neg hx hy

/-- Between hub and tip the loss factor is NaN at every negative inflow angle. -/
theorem lossAboveOne (o : BemOpts) (B : ℕ) (hB : 0 < B) (r h t phi : ℝ) (hh : 0 < h) (h1 : h < r) (h2 : r < t)
    (ho : o.tipLoss = true ∨ o.hubLoss = true) (hp : -Real.pi < phi) (hn : phi < 0) :
    LossAboveOne o B (fin r) (fin h) (fin t) (fin phi) := by
  have hs : Real.sin phi < 0 := Real.sin_neg_of_neg_of_neg_pi_lt hn hp
  have hB' : (0 : ℝ) < B := by exact_mod_cast hB
  have hr : 0 < r := by linarith
  have key : ∀ d R : ℝ, 0 < d → 0 < R →
      (1 : XR) < Num.exp (-(Num.nat B / Num.nat 2 * fin d / (fin R * Num.sin (fin phi)))) := by
    intro d R hd hR
    have hne : R * Real.sin phi < 0 := mul_neg_of_pos_of_neg hR hs
    rw [sin_fin, nat_eq, nat_eq, fin_mul, fin_div _ _ (by norm_num), fin_mul, fin_div _ _ hne.ne, fin_neg, exp_fin, one_eq, fin_lt,
      Real.one_lt_exp_iff]
    have : (B : ℝ) / (2 : ℕ) * d / (R * Real.sin phi) < 0 := div_neg_of_pos_of_neg (by positivity) hne
    linarith
  rcases ho with ho | ho
  · left
    rw [fin_sub]
    exact ⟨ho, key _ _ (by linarith) hr⟩
  · right
    rw [fin_sub]
    exact ⟨ho, key _ _ (by linarith) hh⟩

theorem nabs_fin (x : ℝ) : nabs (fin x) = fin (|x|) := by
  unfold nabs
  by_cases h : x < 0
  · rw [if_pos (show fin x < 0 from h), abs_of_neg h, fin_neg]
  · rw [if_neg (show ¬ fin x < 0 from h), abs_of_nonneg (not_lt.1 h)]

theorem buhlG1_fin (F k : ℝ) : buhlG1 (fin F) (fin k) = fin (buhlG1 F k) := by
  simp only [buhlG1, nat_eq, fin_mul, fin_div _ _ (by norm_num : ((9 : ℕ) : ℝ) ≠ 0), fin_sub, num_real]
theorem buhlG2_fin (F k : ℝ) : buhlG2 (fin F) (fin k) = fin (buhlG2 F k) := by
  simp only [buhlG2, nat_eq, fin_mul, fin_div _ _ (by norm_num : ((3 : ℕ) : ℝ) ≠ 0), fin_sub, num_real]
theorem buhlG3_fin (F k : ℝ) : buhlG3 (fin F) (fin k) = fin (buhlG3 F k) := by
  simp only [buhlG3, nat_eq, fin_mul, fin_div _ _ (by norm_num : ((9 : ℕ) : ℝ) ≠ 0), fin_sub, num_real]

/-- For `k > -1` and positive loss factor the axial induction is finite. -/
theorem axialInduction_fin (phi k F : ℝ) (hphi : 0 < phi) (hF : 0 < F) (hk : -1 < k) :
    axialInduction (fin phi) (fin k) (fin F) = fin (axialInduction phi k F) := by
  have e23 : (Num.nat 2 / Num.nat 3 : XR) = fin (2 / 3) := by
    rw [nat_eq, nat_eq, fin_div _ _ (by norm_num)]
    norm_num
  have e6 : (Num.nat 1 / Num.nat 1000000 : XR) = fin (1 / 1000000) := by
    rw [nat_eq, nat_eq, fin_div _ _ (by norm_num)]
    norm_num
  have e23' : (Num.nat 2 / Num.nat 3 : ℝ) = 2 / 3 := by simp [num_real]
  have e6' : (Num.nat 1 / Num.nat 1000000 : ℝ) = 1 / 1000000 := by simp [num_real]
  unfold axialInduction
  rw [if_pos (show 0 < fin phi from hphi), if_pos hphi, e23, e23']
  by_cases h : k ≤ 2 / 3
  · rw [if_pos (show fin k ≤ fin (2 / 3) from h), if_pos h, one_eq, fin_add, fin_div _ _ (by linarith)]
  · rw [if_neg (show ¬ fin k ≤ fin (2 / 3) from h), if_neg h]
    simp only
    rw [buhlG1_fin, buhlG2_fin, buhlG3_fin, nabs_fin, e6, e6', real_nabs]
    have hk' := not_le.1 h
    have h0 : 0 < buhlG2 F k := lt_of_le_of_lt (sq_nonneg F) (buhlG2_pos hF hk')
    have hw : Real.sqrt (buhlG2 F k) ≠ 0 := (Real.sqrt_pos.2 h0).ne'
    rw [sqrt_fin _ h0.le]
    by_cases h3 : |buhlG3 F k| < 1 / 1000000
    · rw [if_pos (show fin (|buhlG3 F k|) < fin (1 / 1000000) from h3), if_pos h3, one_eq, nat_eq, fin_div _ _ (by norm_num),
        fin_div _ _ hw, fin_sub]
      simp [num_real]
    · have h3' : buhlG3 F k ≠ 0 := by
        intro he
        rw [he, abs_zero] at h3
        norm_num at h3
      rw [if_neg (show ¬ fin (|buhlG3 F k|) < fin (1 / 1000000) from h3), if_neg h3, fin_sub, fin_div _ _ h3']
      rfl

end XR

end Verif
