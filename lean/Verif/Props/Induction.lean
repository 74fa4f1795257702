import Verif.Lemmas.Induction
import Mathlib.Analysis.SpecialFunctions.Sqrt
import Mathlib.Analysis.SpecialFunctions.Trigonometric.Deriv
import Mathlib.Analysis.Calculus.Deriv.Inv

/-!
# Induction factors and relative wind (C13 - C19)
-/

namespace Verif

/-! ## Specification -/

/-- Buhl's empirical thrust coefficient (NREL/TP-500-36834) as a function of the axial induction factor. -/
noncomputable def buhlCT (F a : ℝ) : ℝ := 8 / 9 + (4 * F - 40 / 9) * a + (50 / 9 - 4 * F) * a ^ 2

/-- Prandtl's loss factor for the distance `d` to the edge, measured in units of the reference radius `R`. -/
noncomputable def prandtl (B : ℕ) (d R phi : ℝ) : ℝ :=
  2 / Real.pi * Real.arccos (Real.exp (-(B / 2 * d / (R * Real.sin phi))))

/-- The loss factor the options select. -/
noncomputable def lossSpec (o : BemOpts) (B : ℕ) (r Rhub Rtip phi : ℝ) : ℝ :=
  (if o.tipLoss then prandtl B (Rtip - r) r phi else 1) * (if o.hubLoss then prandtl B (r - Rhub) Rhub phi else 1)

/-- The normal force coefficient. -/
noncomputable def cnSpec (o : BemOpts) (cl cd phi : ℝ) : ℝ :=
  cl * Real.cos phi + (if o.useCd then cd else 0) * Real.sin phi

/-- The tangential force coefficient. -/
noncomputable def ctSpec (o : BemOpts) (cl cd phi : ℝ) : ℝ :=
  cl * Real.sin phi - (if o.useCd then cd else 0) * Real.cos phi

/-- The blade-element parameter `k = sigma' cn / (4 F sin² phi)`. -/
noncomputable def kSpec (o : BemOpts) (B : ℕ) (r chord Rhub Rtip phi cl cd : ℝ) : ℝ :=
  (B * chord / (2 * Real.pi * r)) * cnSpec o cl cd phi / (4 * lossSpec o B r Rhub Rtip phi * Real.sin phi ^ 2)

/-- The blade-element parameter `k' = sigma' ct / (4 F sin phi cos phi)`. -/
noncomputable def kpSpec (o : BemOpts) (B : ℕ) (r chord Rhub Rtip phi cl cd : ℝ) : ℝ :=
  (B * chord / (2 * Real.pi * r)) * ctSpec o cl cd phi /
    (4 * lossSpec o B r Rhub Rtip phi * Real.sin phi * Real.cos phi)

/-! ## The routine computes these quantities -/

theorem loss_eq (o : BemOpts) (B : ℕ) (r Rhub Rtip phi : ℝ) :
    tipFactor o.tipLoss B r Rtip (Real.sin phi) * hubFactor o.hubLoss B r Rhub (Real.sin phi)
      = lossSpec o B r Rhub Rtip phi := by
  simp only [tipFactor, hubFactor, lossSpec, prandtl, num_real]
  push_cast
  rfl

theorem indOut_eq (r chord Rhub Rtip phi cl cd : ℝ) (B : ℕ) (Vx Vy : ℝ) (o : BemOpts) :
    let k := kSpec o B r chord Rhub Rtip phi cl cd
    let kp := kpSpec o B r chord Rhub Rtip phi cl cd
    let F := lossSpec o B r Rhub Rtip phi
    let R := inductionFactors r chord Rhub Rtip phi cl cd B Vx Vy o
    R.a = axialInduction phi k F ∧
    R.ap = (if o.wakeRot then kp / (1 - kp) else 0) ∧
    R.fzero = bemResidual phi (Real.sin phi) (Real.cos phi) (axialInduction phi k F) k (if o.wakeRot then kp else 0) Vx Vy := by
  intro k kp F R
  have hcn : normalCoef o.useCd cl cd (Real.sin phi) (Real.cos phi) = cnSpec o cl cd phi := by
    simp only [normalCoef, cnSpec]
    cases o.useCd <;> simp
  have hct : tangCoef o.useCd cl cd (Real.sin phi) (Real.cos phi) = ctSpec o cl cd phi := by
    simp only [tangCoef, ctSpec]
    cases o.useCd <;> simp
  have hk : bemK (solidity B chord r) (normalCoef o.useCd cl cd (Real.sin phi) (Real.cos phi))
      (tipFactor o.tipLoss B r Rtip (Real.sin phi) * hubFactor o.hubLoss B r Rhub (Real.sin phi)) (Real.sin phi) = k := by
    rw [loss_eq, hcn]
    simp only [bemK, solidity, k, kSpec, num_real, div_div]
    push_cast
    simp only [div_eq_mul_inv, mul_inv]
    ring
  have hkp : bemKp (solidity B chord r) (tangCoef o.useCd cl cd (Real.sin phi) (Real.cos phi))
      (tipFactor o.tipLoss B r Rtip (Real.sin phi) * hubFactor o.hubLoss B r Rhub (Real.sin phi)) (Real.sin phi)
      (Real.cos phi) = kp := by
    rw [loss_eq, hct]
    simp only [bemKp, solidity, kp, kpSpec, num_real, div_div]
    push_cast
    simp only [div_eq_mul_inv, mul_inv]
    ring
  simp only [R, inductionFactors, real_sin, real_cos, hk, hkp]
  rw [loss_eq]
  refine ⟨rfl, ?_, ?_⟩ <;> cases o.wakeRot <;> simp [F]

/-! ## Axial induction -/

private theorem buhl_identity (F w : ℝ) (h : w + (5 / 3 - F) ≠ 0) :
    2 * (w ^ 2 + (4 / 3 - F) * F) * (1 - (1 - 1 / (w + (5 / 3 - F)))) ^ 2 = buhlCT F (1 - 1 / (w + (5 / 3 - F))) := by
  obtain ⟨D, hD⟩ : ∃ D, D = w + (5 / 3 - F) := ⟨_, rfl⟩
  have hw : w = D - (5 / 3 - F) := by linarith
  rw [← hD] at h ⊢
  rw [hw]
  unfold buhlCT
  field_simp
  ring

/-- **C13** Momentum state and Buhl state of the axial induction as a function of the parameter `k`. -/
theorem axialInduction_thrust (phi k F : ℝ) (hphi : 0 < phi) (hF : 0 < F) (hk : -1 < k) :
    (k ≤ 2 / 3 → k * (1 - axialInduction phi k F) = axialInduction phi k F) ∧
    (2 / 3 < k → 1 / 1000000 ≤ |2 * F * k - (25 / 9 - 2 * F)| →
      4 * F * k * (1 - axialInduction phi k F) ^ 2 = buhlCT F (axialInduction phi k F)) := by
  constructor
  · intro h
    rw [axial_momentum hphi h]
    have : (1 + k) ≠ 0 := by linarith
    field_simp
    ring
  · intro h h3
    rw [← buhlG3_real] at h3
    rw [axial_buhl hphi hF h h3]
    have hw := lt_sqrt_buhlG2 hF h
    have hsq : Real.sqrt (buhlG2 F k) ^ 2 = 2 * F * k - (4 / 3 - F) * F := by
      rw [Real.sq_sqrt (le_trans (sq_nonneg F) (buhlG2_pos hF h).le), buhlG2_real]
    set w := Real.sqrt (buhlG2 F k)
    have hw2 : w + (5 / 3 - F) ≠ 0 := by linarith
    have e : 4 * F * k = 2 * (w ^ 2 + (4 / 3 - F) * F) := by linarith
    rw [e]
    exact buhl_identity F w hw2

/-- **C13** The thrust coefficient of the blade element, `sigma' cn (1-a)² / sin² phi`, equals the momentum value
`4 F a (1-a)` in the momentum state (`a ≤ 2/5`) and Buhl's value otherwise. -/
theorem inductionFactors_thrust (r chord Rhub Rtip phi cl cd : ℝ) (B : ℕ) (Vx Vy : ℝ) (o : BemOpts)
    (hphi : 0 < phi) (hs : Real.sin phi ≠ 0) (hF : 0 < lossSpec o B r Rhub Rtip phi)
    (hk : -1 < kSpec o B r chord Rhub Rtip phi cl cd) :
    let k := kSpec o B r chord Rhub Rtip phi cl cd
    let F := lossSpec o B r Rhub Rtip phi
    let a := (inductionFactors r chord Rhub Rtip phi cl cd B Vx Vy o).a
    let CT := (B * chord / (2 * Real.pi * r)) * cnSpec o cl cd phi * (1 - a) ^ 2 / Real.sin phi ^ 2
    (k ≤ 2 / 3 → CT = 4 * F * a * (1 - a)) ∧
    (2 / 3 < k → 1 / 1000000 ≤ |2 * F * k - (25 / 9 - 2 * F)| → CT = buhlCT F a) := by
  intro k F a CT
  have ha : a = axialInduction phi k F := (indOut_eq r chord Rhub Rtip phi cl cd B Vx Vy o).1
  have hCT : CT = 4 * F * k * (1 - a) ^ 2 := by
    simp only [CT, k, kSpec, F]
    field_simp
  have h := axialInduction_thrust phi k F hphi hF hk
  constructor
  · intro h1
    have h2 := h.1 h1
    rw [← ha] at h2
    rw [hCT]
    linear_combination (4 * F * (1 - a)) * h2
  · intro h1 h2
    have h3 := h.2 h1 h2
    rw [← ha] at h3
    rw [hCT, h3]

/-- Non-trivial instance: both branches occur (k = 1/2 and k = 2 with F = 1), away from the guard. -/
example : axialInduction (1:ℝ) (1 / 2) 1 = 1 / 3 ∧ 1 / 1000000 ≤ |2 * (1:ℝ) * 2 - (25 / 9 - 2 * 1)| := by
  constructor
  · rw [axial_momentum one_pos (by norm_num)]; norm_num
  · norm_num [abs_of_pos]

/-- **C13** Inside the singularity guard the returned value differs from the exact root of Buhl's relation by less than
one millionth. -/
theorem axialInduction_guard_error (phi k F : ℝ) (hphi : 0 < phi) (hF : 0 < F) (hF1 : F ≤ 1) (hk : 2 / 3 < k)
    (h3 : |2 * F * k - (25 / 9 - 2 * F)| < 1 / 1000000) :
    ∃ a, 4 * F * k * (1 - a) ^ 2 = buhlCT F a ∧ |axialInduction phi k F - a| < 1 / 1000000 := by
  rw [← buhlG3_real] at h3
  have hw := lt_sqrt_buhlG2 hF hk
  have hsq : Real.sqrt (buhlG2 F k) ^ 2 = buhlG3 F k + (5 / 3 - F) ^ 2 := by
    rw [Real.sq_sqrt (le_trans (sq_nonneg F) (buhlG2_pos hF hk).le), buhlG2_eq]
  have hsq' : Real.sqrt (buhlG2 F k) ^ 2 = 2 * F * k - (4 / 3 - F) * F := by
    rw [Real.sq_sqrt (le_trans (sq_nonneg F) (buhlG2_pos hF hk).le), buhlG2_real]
  rw [axial_guard hphi hk h3]
  have hwn := Real.sqrt_nonneg (buhlG2 F k)
  set w := Real.sqrt (buhlG2 F k)
  set g := buhlG3 F k
  have hu : 2 / 3 ≤ 5 / 3 - F := by linarith
  have hw2 : w + (5 / 3 - F) ≠ 0 := by linarith
  refine ⟨1 - 1 / (w + (5 / 3 - F)), ?_, ?_⟩
  · have e : 4 * F * k = 2 * (w ^ 2 + (4 / 3 - F) * F) := by linarith
    rw [e]
    exact buhl_identity F w hw2
  · have hwl : 3 / 5 < w := by
      by_contra hcon
      have h5 : w ≤ 3 / 5 := not_lt.mp hcon
      have := (abs_lt.mp h3).1
      nlinarith
    have hw0 : w ≠ 0 := by linarith
    have e : 1 - 1 / 2 / w - (1 - 1 / (w + (5 / 3 - F))) = g / (2 * w * (w + (5 / 3 - F)) ^ 2) := by
      have hg : g = w ^ 2 - (5 / 3 - F) ^ 2 := by linarith
      obtain ⟨D, hD⟩ : ∃ D, D = w + (5 / 3 - F) := ⟨_, rfl⟩
      have hF' : 5 / 3 - F = D - w := by linarith
      rw [← hD] at hw2
      rw [hg, ← hD, hF']
      field_simp
      ring
    rw [e, abs_div]
    have hd : 1 ≤ 2 * w * (w + (5 / 3 - F)) ^ 2 := by
      have : 1 ≤ (w + (5 / 3 - F)) ^ 2 := by nlinarith
      nlinarith
    rw [abs_of_pos (lt_of_lt_of_le one_pos hd)]
    calc |g| / (2 * w * (w + (5 / 3 - F)) ^ 2) ≤ |g| / 1 := by
          apply div_le_div_of_nonneg_left (abs_nonneg g) one_pos hd
      _ = |g| := div_one _
      _ < _ := h3

/-- Non-trivial instance: a loss factor of one half, where the guard applies around `k = 16/9`. -/
example : ∃ a, 4 * (1 / 2) * (16 / 9) * (1 - a) ^ 2 = buhlCT (1 / 2) a ∧ |axialInduction (1:ℝ) (16 / 9) (1 / 2) - a| < 1 / 1000000 :=
  axialInduction_guard_error 1 (16 / 9) (1 / 2) one_pos (by norm_num) (by norm_num) (by norm_num) (by norm_num)

/-- **C14** The axial induction factor is below one for every `k > -1`, guard included. -/
theorem axialInduction_lt_one (phi k F : ℝ) (hphi : 0 < phi) (hF : 0 < F) (hk : -1 < k) :
    axialInduction phi k F < 1 := by
  rcases le_or_gt k (2 / 3) with h | h
  · rw [axial_momentum hphi h, div_lt_one (by linarith)]
    linarith
  · have hw := lt_sqrt_buhlG2 hF h
    rcases lt_or_ge (|buhlG3 F k|) (1 / 1000000) with h3 | h3
    · rw [axial_guard hphi h h3]
      have : 0 < 1 / 2 / Real.sqrt (buhlG2 F k) := by
        have : 0 < Real.sqrt (buhlG2 F k) := lt_trans hF hw
        positivity
      linarith
    · rw [axial_buhl hphi hF h h3]
      have : 0 < 1 / (Real.sqrt (buhlG2 F k) + (5 / 3 - F)) := by
        apply div_pos one_pos
        linarith
      linarith

/-- Outside the guard. -/
def offGuard (F k : ℝ) : Prop := k ≤ 2 / 3 ∨ 1 / 1000000 ≤ |2 * F * k - (25 / 9 - 2 * F)|

/-- **C14** Outside the guard the axial induction factor increases strictly with `k`. -/
theorem axialInduction_strictMono (phi F : ℝ) (hphi : 0 < phi) (hF : 0 < F) (k1 k2 : ℝ)
    (h1 : -1 < k1) (h12 : k1 < k2) (g1 : offGuard F k1) (g2 : offGuard F k2) :
    axialInduction phi k1 F < axialInduction phi k2 F := by
  unfold offGuard at g1 g2
  rw [← buhlG3_real] at g1 g2
  rcases le_or_gt k2 (2 / 3) with h2 | h2
  · rw [axial_momentum hphi h2, axial_momentum hphi (le_trans h12.le h2), div_lt_div_iff₀ (by linarith) (by linarith)]
    nlinarith
  · have g2' : 1 / 1000000 ≤ |buhlG3 F k2| := by
      rcases g2 with h | h
      · exact absurd h (not_le.mpr h2)
      · exact h
    rw [axial_buhl hphi hF h2 g2']
    have hw := lt_sqrt_buhlG2 hF h2
    rcases le_or_gt k1 (2 / 3) with h3 | h3
    · rw [axial_momentum hphi h3]
      have e1 : k1 / (1 + k1) ≤ 2 / 5 := by
        rw [div_le_div_iff₀ (by linarith) (by norm_num)]
        linarith
      have e2 : 1 / (Real.sqrt (buhlG2 F k2) + (5 / 3 - F)) < 3 / 5 := by
        rw [div_lt_div_iff₀ (by linarith) (by norm_num)]
        linarith
      linarith
    · have g1' : 1 / 1000000 ≤ |buhlG3 F k1| := by
        rcases g1 with h | h
        · exact absurd h (not_le.mpr h3)
        · exact h
      rw [axial_buhl hphi hF h3 g1']
      have hw1 := lt_sqrt_buhlG2 hF h3
      have hlt : Real.sqrt (buhlG2 F k1) < Real.sqrt (buhlG2 F k2) := by
        apply Real.sqrt_lt_sqrt (le_trans (sq_nonneg F) (buhlG2_pos hF h3).le)
        rw [buhlG2_real, buhlG2_real]
        nlinarith
      have : 1 / (Real.sqrt (buhlG2 F k2) + (5 / 3 - F)) < 1 / (Real.sqrt (buhlG2 F k1) + (5 / 3 - F)) :=
        one_div_lt_one_div_of_lt (by linarith) (by linarith)
      linarith

/-- **C14** At the switch between momentum theory and Buhl's correction (`k = 2/3`) the induction factor is continuous
(value 2/5) and even differentiable (slope 9/25), when the guard is not active just above it. Missing: the other loss factors,
within `3·10⁻⁷` of `5/6`, for which the statement is false, see `axialInduction_switch_not_differentiable` and
`axialInduction_switch_iff`. -/
theorem axialInduction_switch_partial (phi F : ℝ) (hphi : 0 < phi) (hF : 0 < F)
    (hg : 10 / 3 * F - 25 / 9 < -(1 / 1000000) ∨ 1 / 1000000 ≤ 10 / 3 * F - 25 / 9) :
    axialInduction phi (2 / 3) F = 2 / 5 ∧
    HasDerivAt (fun k => axialInduction phi k F) (9 / 25) (2 / 3) := by
  have hval : axialInduction phi (2 / 3) F = 2 / 5 := by
    rw [axial_momentum hphi le_rfl]; norm_num
  refine ⟨hval, ?_⟩
  -- left piece
  have hL : HasDerivAt (fun k : ℝ => k / (1 + k)) (9 / 25) (2 / 3) := by
    have h1 : HasDerivAt (fun k : ℝ => 1 + k) 1 (2 / 3) := by
      simpa using (hasDerivAt_id (2 / 3 : ℝ)).const_add 1
    exact ((hasDerivAt_id (2 / 3 : ℝ)).div h1 (by norm_num)).congr_deriv (by norm_num)
  -- right piece
  have hG2 : HasDerivAt (fun k : ℝ => buhlG2 F k) (2 * F) (2 / 3) := by
    have e : (fun k : ℝ => buhlG2 F k) = fun k => 2 * F * k - (4 / 3 - F) * F := by
      funext k; exact buhlG2_real F k
    rw [e]
    simpa using ((hasDerivAt_id (2 / 3 : ℝ)).const_mul (2 * F)).sub_const ((4 / 3 - F) * F)
  have hG2v : buhlG2 F (2 / 3) = F ^ 2 := by rw [buhlG2_real]; ring
  have hsqrtv : Real.sqrt (buhlG2 F (2 / 3)) = F := by rw [hG2v, Real.sqrt_sq hF.le]
  have hR : HasDerivAt (fun k : ℝ => 1 - 1 / (Real.sqrt (buhlG2 F k) + (5 / 3 - F))) (9 / 25) (2 / 3) := by
    have h1 := (hG2.sqrt (by rw [hG2v]; positivity)).add_const (5 / 3 - F)
    have h2 := ((hasDerivAt_const (2 / 3 : ℝ) (1 : ℝ)).div h1 (by rw [hsqrtv]; norm_num)).const_sub 1
    refine h2.congr_deriv ?_
    rw [hsqrtv]
    have : F ≠ 0 := hF.ne'
    field_simp
    ring
  -- glue
  have hcont : ∀ᶠ k in nhds (2 / 3 : ℝ), 2 / 3 < k → 1 / 1000000 ≤ |buhlG3 F k| := by
    rcases hg with hg | hg
    · have hc : Continuous (fun k : ℝ => buhlG3 F k) := by
        have e : (fun k : ℝ => buhlG3 F k) = fun k => 2 * F * k - (25 / 9 - 2 * F) := by
          funext k; rw [buhlG3_real]
        rw [e]
        fun_prop
      have hv : buhlG3 F (2 / 3) < -(1 / 1000000) := by
        rw [buhlG3_real]
        linarith
      filter_upwards [hc.continuousAt.eventually (gt_mem_nhds hv)] with k hk _
      rw [abs_of_neg (by linarith)]
      linarith
    · refine Filter.Eventually.of_forall fun k hk => le_trans ?_ (le_abs_self _)
      rw [buhlG3_real]
      nlinarith
  rw [hasDerivAt_iff_isLittleO] at *
  rw [hval]
  have hLv : (2 / 3 : ℝ) / (1 + 2 / 3) = 2 / 5 := by norm_num
  have hRv : 1 - 1 / (Real.sqrt (buhlG2 F (2 / 3)) + (5 / 3 - F)) = 2 / 5 := by rw [hsqrtv]; norm_num
  rw [hLv] at hL
  rw [hRv] at hR
  rw [Asymptotics.isLittleO_iff] at *
  intro c hc
  filter_upwards [hL hc, hR hc, hcont] with k h1 h2 h3
  rcases le_or_gt k (2 / 3) with h | h
  · rw [axial_momentum hphi h]; exact h1
  · rw [axial_buhl hphi hF h (h3 h)]; exact h2

example : (1:ℝ) / 1000000 ≤ 10 / 3 * 1 - 25 / 9 := by norm_num

/-- **C14** (disagreement): for the loss factor `F = 5/6` the singularity guard is active at the switch and the induction
factor has a kink there (slope 9/25 below, 18/25 above). -/
theorem axialInduction_switch_not_differentiable :
    ¬ DifferentiableAt ℝ (fun k => axialInduction (1 : ℝ) k (5 / 6)) (2 / 3) := by
  intro hd
  have hval : axialInduction (1 : ℝ) (2 / 3) (5 / 6) = 2 / 5 := by
    rw [axial_momentum one_pos le_rfl]; norm_num
  have hL : HasDerivWithinAt (fun k => axialInduction (1 : ℝ) k (5 / 6)) (9 / 25) (Set.Iic (2 / 3)) (2 / 3) := by
    have h1 : HasDerivAt (fun k : ℝ => 1 + k) 1 (2 / 3) := by
      simpa using (hasDerivAt_id (2 / 3 : ℝ)).const_add 1
    have h2 : HasDerivAt (fun k : ℝ => k / (1 + k)) (9 / 25) (2 / 3) :=
      ((hasDerivAt_id (2 / 3 : ℝ)).div h1 (by norm_num)).congr_deriv (by norm_num)
    exact h2.hasDerivWithinAt.congr (fun k hk => axial_momentum one_pos hk) (axial_momentum one_pos le_rfl)
  have hs : Real.sqrt (buhlG2 (5 / 6 : ℝ) (2 / 3)) = 5 / 6 := by
    rw [buhlG2_real, show (2 * (5 / 6) * (2 / 3) - (4 / 3 - 5 / 6) * (5 / 6) : ℝ) = (5 / 6) ^ 2 by norm_num]
    exact Real.sqrt_sq (by norm_num)
  have hR : HasDerivWithinAt (fun k => axialInduction (1 : ℝ) k (5 / 6)) (18 / 25) (Set.Ici (2 / 3)) (2 / 3) := by
    have hG2 : HasDerivAt (fun k : ℝ => buhlG2 (5 / 6) k) (5 / 3) (2 / 3) := by
      have e : (fun k : ℝ => buhlG2 (5 / 6) k) = fun k => 5 / 3 * k - (4 / 3 - 5 / 6) * (5 / 6) := by
        funext k; rw [buhlG2_real]; ring
      rw [e]
      simpa using ((hasDerivAt_id (2 / 3 : ℝ)).const_mul (5 / 3)).sub_const ((4 / 3 - 5 / 6) * (5 / 6))
    have h0 : buhlG2 (5 / 6 : ℝ) (2 / 3) ≠ 0 := by rw [buhlG2_real]; norm_num
    have h2 := ((hasDerivAt_const (2 / 3 : ℝ) (1 / 2 : ℝ)).div (hG2.sqrt h0) (by rw [hs]; norm_num)).const_sub 1
    have h3 : HasDerivAt (fun k : ℝ => 1 - 1 / 2 / Real.sqrt (buhlG2 (5 / 6) k)) (18 / 25) (2 / 3) :=
      h2.congr_deriv (by rw [hs]; norm_num)
    refine h3.hasDerivWithinAt.congr_of_eventuallyEq ?_ (by rw [hval, hs]; norm_num)
    have hn : Set.Iio (2 / 3 + 1 / 10000000 : ℝ) ∈ nhdsWithin (2 / 3 : ℝ) (Set.Ici (2 / 3)) :=
      mem_nhdsWithin_of_mem_nhds (Iio_mem_nhds (by norm_num))
    filter_upwards [hn, self_mem_nhdsWithin] with k hk hk'
    rcases eq_or_lt_of_le (Set.mem_Ici.mp hk') with h | h
    · subst h; rw [hval, hs]; norm_num
    · refine axial_guard one_pos h ?_
      rw [buhlG3_real, abs_lt]
      have := Set.mem_Iio.mp hk
      constructor <;> linarith
  have e1 := (uniqueDiffWithinAt_Iic (2 / 3 : ℝ)).eq_deriv _ hL hd.hasDerivAt.hasDerivWithinAt
  have e2 := (uniqueDiffWithinAt_Ici (2 / 3 : ℝ)).eq_deriv _ hR hd.hasDerivAt.hasDerivWithinAt
  rw [← e2] at e1
  norm_num at e1

/-- **C14** (disagreement with full continuity and monotonicity): where the singularity guard `|g3| < 1e-6` switches on,
the induction factor jumps. For `F = 2/3`, at `g3 = -10⁻⁶` the unguarded value exceeds guarded values at larger `k`. -/
theorem axialInduction_guard_not_monotone :
    ∃ k1 k2 : ℝ, 2 / 3 < k1 ∧ k1 < k2 ∧ axialInduction (1:ℝ) k2 (2 / 3) < axialInduction (1:ℝ) k1 (2 / 3) := by
  -- g3 = 4/3 k - 13/9 ; u = 1 ; g2 = g3 + 1
  refine ⟨(13 / 9 - 1 / 1000000) * (3 / 4), (13 / 9 - 9 / 10000000) * (3 / 4), by norm_num, by norm_num, ?_⟩
  have g3a : buhlG3 (2 / 3 : ℝ) ((13 / 9 - 1 / 1000000) * (3 / 4)) = -(1 / 1000000) := by
    rw [buhlG3_real]; norm_num
  have g3b : buhlG3 (2 / 3 : ℝ) ((13 / 9 - 9 / 10000000) * (3 / 4)) = -(9 / 10000000) := by
    rw [buhlG3_real]; norm_num
  have a1 := axial_buhl (phi := 1) (F := 2 / 3) (k := (13 / 9 - 1 / 1000000) * (3 / 4)) one_pos (by norm_num)
    (by norm_num) (by rw [g3a]; norm_num [abs_of_pos])
  have a2 := axial_guard (phi := 1) (F := 2 / 3) (k := (13 / 9 - 9 / 10000000) * (3 / 4)) one_pos
    (by norm_num) (by rw [g3b]; norm_num [abs_of_pos])
  rw [a1, a2]
  rw [buhlG2_eq, buhlG2_eq, g3a, g3b]
  have e1 : (-(1 / 1000000) + (5 / 3 - 2 / 3) ^ 2 : ℝ) = 999999 / 1000000 := by norm_num
  have e2 : (-(9 / 10000000) + (5 / 3 - 2 / 3) ^ 2 : ℝ) = 9999991 / 10000000 := by norm_num
  rw [e1, e2]
  have h1 : (9999994 / 10000000 : ℝ) < Real.sqrt (999999 / 1000000) := by
    rw [Real.lt_sqrt (by norm_num)]; norm_num
  have h2 : Real.sqrt (9999991 / 10000000) < 9999996 / 10000000 := by
    rw [Real.sqrt_lt' (by norm_num)]; norm_num
  have h2' : 0 < Real.sqrt (9999991 / 10000000) := Real.sqrt_pos.mpr (by norm_num)
  have h5 : 1 / 2 / Real.sqrt (9999991 / 10000000) = 1 / (2 * Real.sqrt (9999991 / 10000000)) := by
    rw [div_div]
  have h3 : 1 / (Real.sqrt (999999 / 1000000) + (5 / 3 - 2 / 3)) < 1 / (2 * Real.sqrt (9999991 / 10000000)) := by
    apply one_div_lt_one_div_of_lt (by positivity)
    linarith
  rw [h5]
  linarith

/-! ## Loss factors -/

/-- Prandtl's factor lies strictly between 0 and 1 for a positive distance. -/
theorem prandtl_range (B : ℕ) (hB : 0 < B) (d R phi : ℝ) (hd : 0 < d) (hR : 0 < R) (hs : 0 < Real.sin phi) :
    0 < prandtl B d R phi ∧ prandtl B d R phi < 1 := by
  have hB' : (0:ℝ) < B := by exact_mod_cast hB
  have hf : 0 < (B:ℝ) / 2 * d / (R * Real.sin phi) := by positivity
  have he1 : Real.exp (-((B:ℝ) / 2 * d / (R * Real.sin phi))) < 1 := by
    rw [Real.exp_lt_one_iff]; linarith
  have he0 : 0 < Real.exp (-((B:ℝ) / 2 * d / (R * Real.sin phi))) := Real.exp_pos _
  have h1 := Real.arccos_pos.mpr he1
  have h2 := Real.arccos_lt_pi_div_two.mpr he0
  have hpi := Real.pi_pos
  unfold prandtl
  refine ⟨by positivity, ?_⟩
  calc 2 / Real.pi * Real.arccos (Real.exp (-((B:ℝ) / 2 * d / (R * Real.sin phi))))
      < 2 / Real.pi * (Real.pi / 2) := by
        apply mul_lt_mul_of_pos_left h2 (by positivity)
    _ = 1 := by field_simp

/-- **C15** Tip and hub loss factors computed by the code lie in (0,1], and are 1 when switched off. -/
theorem loss_factors_range (B : ℕ) (hB : 0 < B) (r Rhub Rtip phi : ℝ) (hRhub : 0 < Rhub) (h1 : Rhub < r) (h2 : r < Rtip)
    (hphi : 0 < phi) (hphi2 : phi < Real.pi) (tip hub : Bool) :
    (0 < tipFactor tip B r Rtip (Num.sin phi) ∧ tipFactor tip B r Rtip (Num.sin phi) ≤ 1) ∧
    (0 < hubFactor hub B r Rhub (Num.sin phi) ∧ hubFactor hub B r Rhub (Num.sin phi) ≤ 1) ∧
    tipFactor false B r Rtip (Num.sin phi) = 1 ∧ hubFactor false B r Rhub (Num.sin phi) = 1 := by
  have hs := Real.sin_pos_of_pos_of_lt_pi hphi hphi2
  have ht := prandtl_range B hB (Rtip - r) r phi (by linarith) (by linarith) hs
  have hh := prandtl_range B hB (r - Rhub) Rhub phi (by linarith) hRhub hs
  have et : tipFactor true B r Rtip (Real.sin phi) = prandtl B (Rtip - r) r phi := by
    simp only [tipFactor, prandtl, num_real, if_true]; norm_num
  have eh : hubFactor true B r Rhub (Real.sin phi) = prandtl B (r - Rhub) Rhub phi := by
    simp only [hubFactor, prandtl, num_real, if_true]; norm_num
  have et0 : tipFactor false B r Rtip (Real.sin phi) = 1 := by simp [tipFactor]
  have eh0 : hubFactor false B r Rhub (Real.sin phi) = 1 := by simp [hubFactor]
  simp only [real_sin]
  refine ⟨?_, ?_, et0, eh0⟩
  · cases tip
    · rw [et0]; norm_num
    · rw [et]; exact ⟨ht.1, ht.2.le⟩
  · cases hub
    · rw [eh0]; norm_num
    · rw [eh]; exact ⟨hh.1, hh.2.le⟩

/-- **C15** The combined factor lies in (0,1] for every choice of the options. -/
theorem lossSpec_range (o : BemOpts) (B : ℕ) (hB : 0 < B) (r Rhub Rtip phi : ℝ) (hRhub : 0 < Rhub) (h1 : Rhub < r)
    (h2 : r < Rtip) (hphi : 0 < phi) (hphi2 : phi < Real.pi) :
    0 < lossSpec o B r Rhub Rtip phi ∧ lossSpec o B r Rhub Rtip phi ≤ 1 := by
  have h := loss_factors_range B hB r Rhub Rtip phi hRhub h1 h2 hphi hphi2 o.tipLoss o.hubLoss
  simp only [real_sin] at h
  rw [← loss_eq]
  exact ⟨mul_pos h.1.1 h.2.1.1, mul_le_one₀ h.1.2 h.2.1.1.le h.2.1.2⟩

example : 0 < lossSpec ⟨true, true, true, true⟩ 3 10 1 20 (1 / 2) ∧ lossSpec ⟨true, true, true, true⟩ 3 10 1 20 (1 / 2) ≤ 1 :=
  lossSpec_range _ 3 (by norm_num) _ _ _ _ (by norm_num) (by norm_num) (by norm_num) (by norm_num)
    (by linarith [Real.two_le_pi])

/-! ## The residual -/

/-- **C16** For positive inflow angles other than 90° the residual vanishes exactly when the inflow angle agrees with the
velocity triangle formed with the returned induction factors. -/
theorem residual_zero_iff_triangle (r chord Rhub Rtip phi cl cd : ℝ) (B : ℕ) (Vx Vy : ℝ) (o : BemOpts)
    (hphi : 0 < phi) (hc : Real.cos phi ≠ 0) (hVy : Vy ≠ 0)
    (ha : (inductionFactors r chord Rhub Rtip phi cl cd B Vx Vy o).a ≠ 1)
    (hkp : o.wakeRot = true → kpSpec o B r chord Rhub Rtip phi cl cd ≠ 1) :
    let R := inductionFactors r chord Rhub Rtip phi cl cd B Vx Vy o
    R.fzero = 0 ↔ Real.tan phi = Vx * (1 - R.a) / (Vy * (1 + R.ap)) := by
  intro R
  obtain ⟨h1, h2, h3⟩ := indOut_eq r chord Rhub Rtip phi cl cd B Vx Vy o
  have ha' : 1 - R.a ≠ 0 := fun h => ha (by simp only [R] at h; linarith)
  change R.a = _ at h1
  rw [← h1] at h3
  change R.ap = _ at h2
  change R.fzero = _ at h3
  rw [h3, h2, Real.tan_eq_sin_div_cos]
  simp only [bemResidual, hphi, if_true]
  generalize kpSpec o B r chord Rhub Rtip phi cl cd = kp at hkp
  cases hw : o.wakeRot
  · simp only [Bool.false_eq_true, if_false]
    rw [sub_eq_zero]
    field_simp
    simp
  · have hk1 : 1 - kp ≠ 0 := fun h => hkp hw (by linarith)
    have e : 1 + kp / (1 - kp) = 1 / (1 - kp) := by field_simp; ring
    simp only [if_true, e]
    rw [sub_eq_zero]
    field_simp

/-- The hypotheses of C16 are met by an ordinary section: the residual vanishes for instance when the lift and drag are
zero and the flow angle is the geometric one. -/
example : (inductionFactors (10:ℝ) 1 1 20 (Real.pi / 4) 0 0 3 10 10 ⟨true, false, false, true⟩).fzero = 0 := by
  have hpi := Real.pi_pos
  obtain ⟨h1, h2, h3⟩ := indOut_eq (10:ℝ) 1 1 20 (Real.pi / 4) 0 0 3 10 10 ⟨true, false, false, true⟩
  have hk : kSpec ⟨true, false, false, true⟩ 3 10 1 1 20 (Real.pi / 4) 0 0 = 0 := by simp [kSpec, cnSpec]
  have hkp : kpSpec ⟨true, false, false, true⟩ 3 10 1 1 20 (Real.pi / 4) 0 0 = 0 := by simp [kpSpec, ctSpec]
  have ha : (inductionFactors (10:ℝ) 1 1 20 (Real.pi / 4) 0 0 3 10 10 ⟨true, false, false, true⟩).a = 0 := by
    rw [h1, hk, axial_momentum (by positivity) (by norm_num)]; norm_num
  refine (residual_zero_iff_triangle 10 1 1 20 (Real.pi / 4) 0 0 3 10 10 ⟨true, false, false, true⟩ (by positivity)
    (Real.cos_pos_of_mem_Ioo ⟨by linarith, by linarith⟩).ne' (by norm_num) (by rw [ha]; norm_num) (by intro _; rw [hkp]; norm_num)).mpr ?_
  rw [ha, h2, hkp, Real.tan_pi_div_four]
  norm_num

/-- **C16** In the propeller-brake region (nonpositive inflow angle, k > 1) the residual is written with k instead of a, and
it too vanishes exactly when the inflow angle agrees with the velocity triangle. -/
theorem residual_zero_iff_triangle_brake (r chord Rhub Rtip phi cl cd : ℝ) (B : ℕ) (Vx Vy : ℝ) (o : BemOpts)
    (hphi : phi ≤ 0) (hc : Real.cos phi ≠ 0) (hVy : Vy ≠ 0) (hk : 1 < kSpec o B r chord Rhub Rtip phi cl cd)
    (hkp : o.wakeRot = true → kpSpec o B r chord Rhub Rtip phi cl cd ≠ 1) :
    let R := inductionFactors r chord Rhub Rtip phi cl cd B Vx Vy o
    1 < R.a ∧ (R.fzero = 0 ↔ Real.tan phi = Vx * (1 - R.a) / (Vy * (1 + R.ap))) := by
  intro R
  obtain ⟨h1, h2, h3⟩ := indOut_eq r chord Rhub Rtip phi cl cd B Vx Vy o
  generalize kSpec o B r chord Rhub Rtip phi cl cd = k at hk h1 h3
  have ha : R.a = k / (k - 1) := by
    change R.a = _ at h1
    rw [h1]; simp only [axialInduction, not_lt.mpr hphi, hk, if_true, if_false]
  have hk1 : k - 1 ≠ 0 := by linarith
  have hk2 : 1 - k ≠ 0 := fun h => hk1 (by linarith)
  refine ⟨by rw [ha, lt_div_iff₀ (by linarith)]; linarith, ?_⟩
  have e : 1 - R.a = 1 / (1 - k) := by rw [ha]; field_simp; ring
  change R.ap = _ at h2
  change R.fzero = _ at h3
  rw [h3, h2, e, Real.tan_eq_sin_div_cos]
  simp only [bemResidual, not_lt.mpr hphi, if_false]
  generalize kpSpec o B r chord Rhub Rtip phi cl cd = kp at hkp
  cases hw : o.wakeRot
  · simp only [Bool.false_eq_true, if_false]
    rw [sub_eq_zero]
    field_simp
    simp
  · have hk1 : 1 - kp ≠ 0 := fun h => hkp hw (by linarith)
    have e : 1 + kp / (1 - kp) = 1 / (1 - kp) := by field_simp; ring
    simp only [if_true, e]
    rw [sub_eq_zero]
    field_simp

/-- A station in the propeller-brake region (losses off): φ = −45°, k = 3/2, and the residual vanishes at the tip-speed ratio
given by the velocity triangle. -/
example : kSpec ⟨false, false, false, false⟩ 3 1 (2 * Real.pi / 3) 1 2 (-(Real.pi / 4)) (3 * Real.sqrt 2) 0 = 3 / 2 ∧
    (inductionFactors (1:ℝ) (2 * Real.pi / 3) 1 2 (-(Real.pi / 4)) (3 * Real.sqrt 2) 0 3 1 2
      ⟨false, false, false, false⟩).fzero = 0 := by
  have hpi := Real.pi_pos
  have h2 : Real.sqrt 2 ^ 2 = 2 := Real.sq_sqrt (by norm_num)
  have hk : kSpec ⟨false, false, false, false⟩ 3 1 (2 * Real.pi / 3) 1 2 (-(Real.pi / 4)) (3 * Real.sqrt 2) 0 = 3 / 2 := by
    have e : (3:ℝ) * (2 * Real.pi / 3) / (2 * Real.pi * 1) = 1 := by field_simp
    simp only [kSpec, cnSpec, lossSpec, Real.cos_neg, Real.sin_neg, Real.cos_pi_div_four, Real.sin_pi_div_four,
      Bool.false_eq_true, if_false]
    norm_num [e, h2]
    field_simp
    norm_num
  refine ⟨hk, ((residual_zero_iff_triangle_brake 1 (2 * Real.pi / 3) 1 2 (-(Real.pi / 4)) (3 * Real.sqrt 2) 0 3 1 2
    ⟨false, false, false, false⟩ (by linarith) ?_ (by norm_num) (by rw [hk]; norm_num) (by simp)).2).mpr ?_⟩
  · rw [Real.cos_neg, Real.cos_pi_div_four]; positivity
  · obtain ⟨h1, h2, h3⟩ := indOut_eq 1 (2 * Real.pi / 3) 1 2 (-(Real.pi / 4)) (3 * Real.sqrt 2) 0 3 1 2
      ⟨false, false, false, false⟩
    rw [h2, h1, hk, Real.tan_neg, Real.tan_pi_div_four]
    have hn : ¬ 0 < -(Real.pi / 4) := by linarith
    simp only [axialInduction, hn, if_false]
    norm_num

/-- **C17** Where the velocity triangle closes, `relativeWind` returns the length of the relative velocity (up to the
sign of the two guarded branches), whichever of its three formulas it uses; alpha and Re are the documented formulas. -/
theorem relativeWind_at_solution (phi a ap Vx Vy pitch chord theta rho mu : ℝ)
    (hphi : 0 < phi) (hphi2 : phi < Real.pi / 2) (hV : Vy * (1 + ap) ≠ 0)
    (htri : Real.tan phi = Vx * (1 - a) / (Vy * (1 + ap))) :
    let w := relativeWind phi a ap Vx Vy pitch chord theta rho mu
    |w.W| = Real.sqrt ((Vx * (1 - a)) ^ 2 + (Vy * (1 + ap)) ^ 2) ∧
    |w.W| * Real.sin phi = |Vx * (1 - a)| ∧ |w.W| * Real.cos phi = |Vy * (1 + ap)| ∧
    w.alpha = phi - theta - pitch ∧ w.Re = rho * w.W * chord / mu := by
  intro w
  have hc : 0 < Real.cos phi := Real.cos_pos_of_mem_Ioo ⟨by linarith, hphi2⟩
  have hs : 0 < Real.sin phi := Real.sin_pos_of_pos_of_lt_pi hphi (by linarith [Real.pi_pos])
  set X := Vx * (1 - a) with hX
  set Y := Vy * (1 + ap) with hY
  have hXY : X = Y * (Real.sin phi / Real.cos phi) := by
    rw [Real.tan_eq_sin_div_cos] at htri
    rw [htri]; field_simp
  have hsq : X ^ 2 + Y ^ 2 = (Y / Real.cos phi) ^ 2 := by
    rw [hXY]
    field_simp
    linear_combination Real.sin_sq_add_cos_sq phi
  have hroot : Real.sqrt (X ^ 2 + Y ^ 2) = |Y / Real.cos phi| := by rw [hsq, Real.sqrt_sq_eq_abs]
  have hXs : X / Real.sin phi = Y / Real.cos phi := by
    rw [hXY]; field_simp
  have hW : |w.W| = |Y / Real.cos phi| := by
    simp only [w, relativeWind, relSpeed]
    split_ifs
    · rfl
    · simp only [real_sin]
      rw [← hX, hXs]
    · simp only [num_real]
      rw [← hX, ← hY, hroot, abs_abs]
  refine ⟨by rw [hW, hroot], ?_, ?_, ?_, rfl⟩
  · rw [hW, ← hXs, abs_div, abs_of_pos hs]; field_simp
  · rw [hW, abs_div, abs_of_pos hc]; field_simp
  · simp only [w, relativeWind]; ring

/-- **C17** The same, stated for a root of the residual. -/
theorem relativeWind_at_root (r chord Rhub Rtip phi cl cd : ℝ) (B : ℕ) (Vx Vy : ℝ) (o : BemOpts)
    (pitch theta rho mu : ℝ)
    (hphi : 0 < phi) (hphi2 : phi < Real.pi / 2) (hVy : Vy ≠ 0)
    (hkp : o.wakeRot = true → kpSpec o B r chord Rhub Rtip phi cl cd ≠ 1) :
    let R := inductionFactors r chord Rhub Rtip phi cl cd B Vx Vy o
    let w := relativeWind phi R.a R.ap Vx Vy pitch chord theta rho mu
    R.a ≠ 1 → R.fzero = 0 →
    |w.W| = Real.sqrt ((Vx * (1 - R.a)) ^ 2 + (Vy * (1 + R.ap)) ^ 2) ∧
    |w.W| * Real.sin phi = |Vx * (1 - R.a)| ∧ |w.W| * Real.cos phi = |Vy * (1 + R.ap)| := by
  intro R w ha hz
  have h := (residual_zero_iff_triangle r chord Rhub Rtip phi cl cd B Vx Vy o hphi
    (Real.cos_pos_of_mem_Ioo ⟨by linarith, hphi2⟩).ne' hVy ha hkp).mp hz
  have hap : 1 + R.ap ≠ 0 := by
    obtain ⟨-, h2, -⟩ := indOut_eq r chord Rhub Rtip phi cl cd B Vx Vy o
    change R.ap = _ at h2
    rw [h2]
    cases hw : o.wakeRot
    · simp
    · have hk1 : 1 - kpSpec o B r chord Rhub Rtip phi cl cd ≠ 0 := fun h => hkp hw (by linarith)
      simp only [if_true]
      intro h0
      field_simp at h0
      linarith
  have := relativeWind_at_solution phi R.a R.ap Vx Vy pitch chord theta rho mu hphi hphi2 (mul_ne_zero hVy hap) h
  exact ⟨this.1, this.2.1, this.2.2.1⟩

/-- Non-trivial instance of C17: a 45° triangle with 10 m/s in both directions. -/
example : |(relativeWind (Real.pi / 4) 0 0 10 10 0 1 0 1 (1:ℝ)).W| = Real.sqrt 200 := by
  have h := (relativeWind_at_solution (Real.pi / 4) 0 0 10 10 0 1 0 1 1 (by linarith [Real.pi_pos])
    (by linarith [Real.pi_pos]) (by norm_num) (by rw [Real.tan_pi_div_four]; norm_num)).1
  rw [h]; norm_num

/-! ## Options and scaling -/

section generic
variable {α : Type} [Num α]

/-- **C18** Each option switches off exactly its effect. Proved for every scalar type, hence for doubles. -/
theorem options_effect (r chord Rhub Rtip phi cl cd : α) (B : ℕ) (Vx Vy : α) (o : BemOpts) :
    (o.wakeRot = false → (inductionFactors r chord Rhub Rtip phi cl cd B Vx Vy o).ap = 0) ∧
    (o.useCd = false → ∀ cd', inductionFactors r chord Rhub Rtip phi cl cd' B Vx Vy o
        = inductionFactors r chord Rhub Rtip phi cl cd B Vx Vy o) ∧
    (o.tipLoss = false → ∀ Rtip', inductionFactors r chord Rhub Rtip' phi cl cd B Vx Vy o
        = inductionFactors r chord Rhub Rtip phi cl cd B Vx Vy o) ∧
    (o.hubLoss = false → ∀ Rhub', inductionFactors r chord Rhub' Rtip phi cl cd B Vx Vy o
        = inductionFactors r chord Rhub Rtip phi cl cd B Vx Vy o) := by
  refine ⟨?_, ?_, ?_, ?_⟩
  · intro h; simp [inductionFactors, h]
  · intro h cd'; simp [inductionFactors, normalCoef, tangCoef, h]
  · intro h Rtip'; simp [inductionFactors, tipFactor, h]
  · intro h Rhub'; simp [inductionFactors, hubFactor, h]

/-- **C18** With drag switched on the induction factors are those of the resolved force coefficients; without wake
rotation the axial induction factor is the same as with it. -/
theorem options_wake_same_axial (r chord Rhub Rtip phi cl cd : α) (B : ℕ) (Vx Vy : α) (u h t w : Bool) :
    (inductionFactors r chord Rhub Rtip phi cl cd B Vx Vy ⟨u, h, t, w⟩).a
      = (inductionFactors r chord Rhub Rtip phi cl cd B Vx Vy ⟨u, h, t, true⟩).a := rfl

end generic

/-- **C18** Without wake rotation the residual is that of a flow with no tangential induction: the tangential force does not
enter it. -/
theorem options_wake_residual (r chord Rhub Rtip phi cl cd : ℝ) (B : ℕ) (Vx Vy : ℝ) (o : BemOpts) (hw : o.wakeRot = false) :
    let R := inductionFactors r chord Rhub Rtip phi cl cd B Vx Vy o
    R.fzero = (if 0 < phi then Real.sin phi / (1 - R.a)
      else Real.sin phi * (1 - kSpec o B r chord Rhub Rtip phi cl cd)) - Real.cos phi / (Vy / Vx) := by
  intro R
  obtain ⟨h1, h2, h3⟩ := indOut_eq r chord Rhub Rtip phi cl cd B Vx Vy o
  change R.a = _ at h1
  change R.fzero = _ at h3
  rw [← h1] at h3
  rw [h3, hw]
  simp only [bemResidual, Bool.false_eq_true, if_false, sub_zero, mul_one]
  split_ifs <;> rfl

/-- The tangential coefficient is not constant: at φ = 45° it changes with the drag. -/
example : ctSpec ⟨true, false, false, true⟩ 1 0 (Real.pi / 4) ≠ ctSpec ⟨true, false, false, true⟩ 1 1 (Real.pi / 4) := by
  simp only [ctSpec, Real.cos_pi_div_four, Real.sin_pi_div_four]
  norm_num

/-- The options do have an effect when switched on (so C18 is not about constant functions): with drag the axial
induction factor changes with `cd`. -/
example : (inductionFactors (10:ℝ) 1 1 20 (Real.pi / 2) 0 0 3 10 10 ⟨true, false, false, true⟩).a
    ≠ (inductionFactors (10:ℝ) 1 1 20 (Real.pi / 2) 0 1 3 10 10 ⟨true, false, false, true⟩).a := by
  have hpi := Real.pi_pos
  rw [(indOut_eq (10:ℝ) 1 1 20 (Real.pi / 2) 0 0 3 10 10 ⟨true, false, false, true⟩).1,
    (indOut_eq (10:ℝ) 1 1 20 (Real.pi / 2) 0 1 3 10 10 ⟨true, false, false, true⟩).1]
  have hk : kSpec ⟨true, false, false, true⟩ 3 10 1 1 20 (Real.pi / 2) 0 0 = 0 := by simp [kSpec, cnSpec]
  have hk' : kSpec ⟨true, false, false, true⟩ 3 10 1 1 20 (Real.pi / 2) 0 1 = 3 / (80 * Real.pi) := by
    simp [kSpec, cnSpec, lossSpec]; field_simp; norm_num
  rw [hk, hk', axial_momentum (by positivity) (by norm_num), axial_momentum (by positivity)]
  · have : (3 / (80 * Real.pi)) / (1 + 3 / (80 * Real.pi)) ≠ 0 := by positivity
    simpa using this.symm
  · rw [div_le_div_iff₀ (by positivity) (by norm_num)]
    linarith [Real.two_le_pi]

/-- **C19** Scaling both velocity components by the same nonzero factor changes nothing. -/
theorem inductionFactors_scale (r chord Rhub Rtip phi cl cd : ℝ) (B : ℕ) (Vx Vy c : ℝ) (o : BemOpts) (hc : c ≠ 0) :
    inductionFactors r chord Rhub Rtip phi cl cd B (c * Vx) (c * Vy) o
      = inductionFactors r chord Rhub Rtip phi cl cd B Vx Vy o := by
  have h : c * Vy / (c * Vx) = Vy / Vx := mul_div_mul_left Vy Vx hc
  simp only [inductionFactors, bemResidual, h]

end Verif
