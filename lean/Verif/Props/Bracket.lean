import Verif.Lemmas.Bracket
import Verif.Props.Solve

/-!
# Does a bracket always exist? (C33)
-/

namespace Verif

theorem errFun_eq (R : Rotor ℝ) (pitch : ℝ) (x : Sec ℝ) (phi : ℝ) :
    errFun R pitch x phi = (inductionFactors x.r x.chord R.Rhub R.Rtip phi (runBEM R pitch phi x).cl (runBEM R pitch phi x).cd
      R.B x.Vx x.Vy R.opts).fzero := by
  have h : ∀ (k : ℕ) (o : BemOut ℝ), o.fzero = (inductionFactors x.r x.chord R.Rhub R.Rtip phi o.cl o.cd R.B x.Vx x.Vy R.opts).fzero →
      (bemPasses R pitch phi x k o).fzero = (inductionFactors x.r x.chord R.Rhub R.Rtip phi (bemPasses R pitch phi x k o).cl
        (bemPasses R pitch phi x k o).cd R.B x.Vx x.Vy R.opts).fzero := by
    intro k
    induction k with
    | zero => intro o ho; exact ho
    | succ k ih => intro o _; exact ih _ rfl
  exact h _ _ rfl

/-- At 90° the residual is positive unless the drag is negative. -/
theorem residual_right_angle (r chord Rhub Rtip cl cd : ℝ) (B : ℕ) (Vx Vy : ℝ) (o : BemOpts) (hB : 0 < B) (hRhub : 0 < Rhub)
    (h1 : Rhub < r) (h2 : r < Rtip) (hc : 0 < chord) (hcd : 0 ≤ cd) :
    0 < (inductionFactors r chord Rhub Rtip (Real.pi / 2) cl cd B Vx Vy o).fzero := by
  obtain ⟨-, -, h⟩ := indOut_eq r chord Rhub Rtip (Real.pi / 2) cl cd B Vx Vy o
  rw [h]
  have hpi := Real.pi_pos
  have hF := lossSpec_range o B hB r Rhub Rtip (Real.pi / 2) hRhub h1 h2 (by linarith) (by linarith)
  have hB' : (0 : ℝ) < B := by exact_mod_cast hB
  have hr : 0 < r := by linarith
  have hk : 0 ≤ kSpec o B r chord Rhub Rtip (Real.pi / 2) cl cd := by
    have : 0 ≤ cnSpec o cl cd (Real.pi / 2) := by
      simp only [cnSpec, Real.cos_pi_div_two, Real.sin_pi_div_two]
      split <;> simp [hcd]
    unfold kSpec
    have := hF.1
    positivity
  have ha := axialInduction_lt_one (Real.pi / 2) _ _ (by linarith) hF.1 (by linarith : (-1 : ℝ) < _)
  simp only [bemResidual, if_pos (by linarith : 0 < Real.pi / 2), Real.cos_pi_div_two, Real.sin_pi_div_two, zero_div, zero_mul,
    sub_zero]
  exact one_div_pos.2 (by linarith)

/-- The solidity `B c / (2π r)` -/
noncomputable def solidityOf (B : ℕ) (chord r : ℝ) : ℝ := B * chord / (2 * Real.pi * r)

/-- Near 180° the residual is negative for a section with enough lift.  Here `s` and `c` are sine and cosine of the small angle. -/
theorem residual_straight_angle (r chord Rhub Rtip e cl cd : ℝ) (B : ℕ) (Vx Vy : ℝ) (o : BemOpts) (hB : 0 < B) (hRhub : 0 < Rhub)
    (h1 : Rhub < r) (h2 : r < Rtip) (hc : 0 < chord) (hcd : 0 ≤ cd) (he : 0 < e) (he2 : e < Real.pi / 2) (hVx : 0 < Vx) (hVy : 0 < Vy)
    (hcl : (cd + 4 * Real.sin e / solidityOf B chord r) * (Vy * Real.sin e + Vx * Real.cos e) <
      cl * (Vy * Real.cos e - Vx * Real.sin e)) (hlam : Vx * Real.sin e < Vy * Real.cos e) :
    (inductionFactors r chord Rhub Rtip (Real.pi - e) cl cd B Vx Vy o).fzero < 0 := by
  obtain ⟨-, -, h⟩ := indOut_eq r chord Rhub Rtip (Real.pi - e) cl cd B Vx Vy o
  rw [h]
  have hpi := Real.pi_pos
  have hF := lossSpec_range o B hB r Rhub Rtip (Real.pi - e) hRhub h1 h2 (by linarith) (by linarith)
  have hB' : (0 : ℝ) < B := by exact_mod_cast hB
  have hr : 0 < r := by linarith
  have hσ : 0 < solidityOf B chord r := by unfold solidityOf; positivity
  have hs : 0 < Real.sin e := Real.sin_pos_of_pos_of_lt_pi he (by linarith)
  have hc' : 0 < Real.cos e := Real.cos_pos_of_mem_Ioo ⟨by linarith, he2⟩
  unfold kSpec kpSpec cnSpec ctSpec
  rw [← solidityOf]
  simp only [Real.sin_pi_sub, Real.cos_pi_sub]
  set s := Real.sin e
  set c := Real.cos e
  set F := lossSpec o B r Rhub Rtip (Real.pi - e)
  set σ := solidityOf B chord r
  obtain ⟨d, hd, hd0, hd1⟩ : ∃ d, d = (if o.useCd then cd else 0) ∧ 0 ≤ d ∧ d ≤ cd := by
    refine ⟨_, rfl, ?_, ?_⟩ <;> split <;> simp [hcd]
  rw [← hd]
  have hcl0 : 0 < cl := by
    by_contra hn
    push Not at hn
    have h3 : 0 ≤ (cd + 4 * s / σ) * (Vy * s + Vx * c) := by positivity
    have h4 : cl * (Vy * c - Vx * s) ≤ 0 := mul_nonpos_of_nonpos_of_nonneg hn (by linarith)
    linarith
  -- the condition with the loss factor and the drag the code uses
  have key : 4 * F * s * (Vy * s + Vx * c) + σ * (cl * (Vx * s - Vy * c) + d * (Vy * s + Vx * c)) < 0 := by
    have h3 : (4 * F * s / σ) * (Vy * s + Vx * c) ≤ (4 * s / σ) * (Vy * s + Vx * c) := by
      gcongr
      nlinarith [hF.2]
    have h4 : d * (Vy * s + Vx * c) ≤ cd * (Vy * s + Vx * c) := by gcongr
    have h5 : (4 * F * s / σ) * (Vy * s + Vx * c) + (cl * (Vx * s - Vy * c) + d * (Vy * s + Vx * c)) < 0 := by nlinarith
    have h6 : 4 * F * s * (Vy * s + Vx * c) + σ * (cl * (Vx * s - Vy * c) + d * (Vy * s + Vx * c)) =
        σ * ((4 * F * s / σ) * (Vy * s + Vx * c) + (cl * (Vx * s - Vy * c) + d * (Vy * s + Vx * c))) := by
      field_simp
    rw [h6]
    exact mul_neg_of_pos_of_neg hσ h5
  have hk : σ * (cl * -c + d * s) / (4 * F * s ^ 2) < -1 := by
    have hF0 := hF.1
    rw [div_lt_iff₀ (by positivity)]
    -- times Vy
    have h7 : 0 ≤ σ * (cl * s + d * c) * Vx := by positivity
    have h8 : 0 ≤ 4 * F * s * (Vx * c) := by positivity
    have h9 : Vy * (σ * (cl * -c + d * s) + 4 * F * s ^ 2) < 0 := by nlinarith
    nlinarith
  set k := σ * (cl * -c + d * s) / (4 * F * s ^ 2) with hkdef
  have hF0 := hF.1
  have e1 : s / (1 - axialInduction (Real.pi - e) k F) = s * (1 + k) := by
    rw [← inv_axial_momentum (phi := Real.pi - e) (F := F) (by linarith) (by linarith) (by linarith)]
    ring
  simp only [bemResidual, if_pos (by linarith : 0 < Real.pi - e), e1]
  have hsk : s * k = σ * (cl * -c + d * s) / (4 * F * s) := by
    rw [hkdef]
    field_simp
  have hneg : 4 * F * s * (Vy * (s * (1 + k)) + c * Vx) < 0 := by
    have h7 : 0 ≤ σ * (cl * s + d * c) * Vx := by positivity
    have h8 : 4 * F * s * (Vy * (s * (1 + k)) + c * Vx) =
        4 * F * s * (Vy * s + Vx * c) + σ * Vy * (cl * -c + d * s) := by
      rw [mul_add s, hsk]
      field_simp
      ring
    rw [h8]
    nlinarith
  have hfin : ∀ kp : ℝ, 4 * F * s * (Vy * (s * (1 + k)) + c * Vx * (1 - kp)) < 0 →
      s * (1 + k) - -c / (Vy / Vx) * (1 - kp) < 0 := by
    intro kp hkp
    have h9 : 0 < 4 * F * s := by positivity
    have h10 : Vy * (s * (1 + k)) + c * Vx * (1 - kp) < 0 := by
      by_contra hn
      push Not at hn
      have := mul_nonneg h9.le hn
      linarith
    have h11 : s * (1 + k) - -c / (Vy / Vx) * (1 - kp) = (Vy * (s * (1 + k)) + c * Vx * (1 - kp)) / Vy := by
      field_simp
      ring
    rw [h11]
    exact div_neg_of_neg_of_pos h10 hVy
  apply hfin
  by_cases hw : o.wakeRot = true
  · rw [if_pos hw]
    have h12 : 4 * F * s * (Vy * (s * (1 + k)) + c * Vx * (1 - σ * (cl * s - d * -c) / (4 * F * s * -c))) =
        4 * F * s * (Vy * s + Vx * c) + σ * (cl * (Vx * s - Vy * c) + d * (Vy * s + Vx * c)) := by
      rw [mul_add s, hsk]
      field_simp
      ring
    rw [h12]
    exact key
  · rw [if_neg hw]
    simpa using hneg

/-- **C33** (partial) A section whose drag is not negative, and whose lift at the inflow angle just below 180° exceeds the drag there
(and a tiny solidity-dependent amount) divided by the local speed ratio, always has a sign change of the residual over the bracket the
code chooses.  Missing: other lift and drag data, for which the statement is false, see `bracket_exists_false`. -/
theorem bracket_exists_partial (R : Rotor ℝ) (pitch : ℝ) (x : Sec ℝ) (hB : 0 < R.B) (hRhub : 0 < R.Rhub) (h1 : R.Rhub < x.r)
    (h2 : x.r < R.Rtip) (hc : 0 < x.chord) (hVx : 0 < x.Vx) (hVy : 0 < x.Vy)
    (hcd : 0 ≤ (runBEM R pitch (Real.pi / 2) x).cd) (hcd' : 0 ≤ (runBEM R pitch (Real.pi - 1 / 1000000) x).cd)
    (hlam : x.Vx * Real.sin (1 / 1000000) < x.Vy * Real.cos (1 / 1000000))
    (hcl : ((runBEM R pitch (Real.pi - 1 / 1000000) x).cd + 4 * Real.sin (1 / 1000000) / solidityOf R.B x.chord x.r) *
        (x.Vy * Real.sin (1 / 1000000) + x.Vx * Real.cos (1 / 1000000)) <
      (runBEM R pitch (Real.pi - 1 / 1000000) x).cl * (x.Vy * Real.cos (1 / 1000000) - x.Vx * Real.sin (1 / 1000000))) :
    errFun R pitch x (bracket (errFun R pitch x)).1 * errFun R pitch x (bracket (errFun R pitch x)).2 ≤ 0 := by
  obtain ⟨c1, c2, c3⟩ := bracket_choice (errFun R pitch x)
  rcases le_or_gt (errFun R pitch x (1 / 1000000) * errFun R pitch x (Real.pi / 2)) 0 with h | h
  · rw [c1 h]
    exact h
  · by_cases h' : errFun R pitch x (-Real.pi / 4) < 0 ∧ 0 < errFun R pitch x (-(1 / 1000000))
    · rw [c2 h h'.1 h'.2]
      exact (mul_neg_of_neg_of_pos h'.1 h'.2).le
    · rw [c3 h h']
      have ha : 0 < errFun R pitch x (Real.pi / 2) := by
        rw [errFun_eq]
        exact residual_right_angle _ _ _ _ _ _ _ _ _ _ hB hRhub h1 h2 hc hcd
      have hb : errFun R pitch x (Real.pi - 1 / 1000000) < 0 := by
        rw [errFun_eq]
        exact residual_straight_angle _ _ _ _ _ _ _ _ _ _ _ hB hRhub h1 h2 hc hcd' (by norm_num)
          (by linarith [Real.pi_gt_three]) hVx hVy hcl hlam
      exact (mul_neg_of_pos_of_neg ha hb).le

/-- Near 0° the residual is negative for a section with negative lift there: the ordinary case, a twisted blade whose angle of
attack falls below zero lift when the flow comes along the rotor plane. -/
theorem residual_small_angle (r chord Rhub Rtip e cl cd : ℝ) (B : ℕ) (Vx Vy : ℝ) (o : BemOpts) (hB : 0 < B) (hRhub : 0 < Rhub)
    (h1 : Rhub < r) (h2 : r < Rtip) (hc : 0 < chord) (hcd : 0 ≤ cd) (he : 0 < e) (he2 : e < Real.pi / 2) (hVx : 0 < Vx) (hVy : 0 < Vy)
    (hcl : cl * Real.cos e + cd * Real.sin e < -(4 * Real.sin e ^ 2 / solidityOf B chord r)) :
    (inductionFactors r chord Rhub Rtip e cl cd B Vx Vy o).fzero < 0 := by
  obtain ⟨-, -, h⟩ := indOut_eq r chord Rhub Rtip e cl cd B Vx Vy o
  rw [h]
  have hpi := Real.pi_pos
  have hF := lossSpec_range o B hB r Rhub Rtip e hRhub h1 h2 he (by linarith)
  have hB' : (0 : ℝ) < B := by exact_mod_cast hB
  have hr : 0 < r := by linarith
  have hσ : 0 < solidityOf B chord r := by unfold solidityOf; positivity
  have hs : 0 < Real.sin e := Real.sin_pos_of_pos_of_lt_pi he (by linarith)
  have hc' : 0 < Real.cos e := Real.cos_pos_of_mem_Ioo ⟨by linarith, he2⟩
  unfold kSpec kpSpec cnSpec ctSpec
  rw [← solidityOf]
  set s := Real.sin e
  set c := Real.cos e
  set F := lossSpec o B r Rhub Rtip e
  set σ := solidityOf B chord r
  obtain ⟨d, hd, hd0, hd1⟩ : ∃ d, d = (if o.useCd then cd else 0) ∧ 0 ≤ d ∧ d ≤ cd := by
    refine ⟨_, rfl, ?_, ?_⟩ <;> split <;> simp [hcd]
  rw [← hd]
  have hF0 := hF.1
  have hcl0 : cl < 0 := by
    have h3 : 0 < 4 * s ^ 2 / σ := by positivity
    have h4 : 0 ≤ cd * s := by positivity
    by_contra hn
    push Not at hn
    have : 0 ≤ cl * c := by positivity
    linarith
  have hcn : σ * (cl * c + d * s) < -(4 * s ^ 2) := by
    have h5 : d * s ≤ cd * s := by gcongr
    have h6 : σ * (cl * c + d * s) < σ * -(4 * s ^ 2 / σ) := by
      apply mul_lt_mul_of_pos_left _ hσ
      linarith
    have h7 : σ * -(4 * s ^ 2 / σ) = -(4 * s ^ 2) := by field_simp
    linarith
  have hk : σ * (cl * c + d * s) / (4 * F * s ^ 2) < -1 := by
    rw [div_lt_iff₀ (by positivity)]
    nlinarith [hF.2, sq_nonneg s]
  have e1 : s / (1 - axialInduction e (σ * (cl * c + d * s) / (4 * F * s ^ 2)) F) ≤ 0 := by
    rw [axial_momentum he (by linarith)]
    generalize σ * (cl * c + d * s) / (4 * F * s ^ 2) = k at hk
    have : 1 - k / (1 + k) = 1 / (1 + k) := by
      have : 1 + k ≠ 0 := by linarith
      field_simp
      ring
    rw [this]
    apply div_nonpos_of_nonneg_of_nonpos hs.le
    exact one_div_nonpos.2 (by linarith)
  have hkp : (if o.wakeRot then σ * (cl * s - d * c) / (4 * F * s * c) else 0) ≤ 0 := by
    split_ifs
    · apply div_nonpos_of_nonpos_of_nonneg _ (by positivity)
      apply mul_nonpos_of_nonneg_of_nonpos hσ.le
      have : cl * s < 0 := mul_neg_of_neg_of_pos hcl0 hs
      have : 0 ≤ d * c := by positivity
      linarith
    · exact le_rfl
  simp only [bemResidual, if_pos he]
  have h8 : 0 < c / (Vy / Vx) * (1 - (if o.wakeRot then σ * (cl * s - d * c) / (4 * F * s * c) else 0)) := by
    apply mul_pos (by positivity)
    linarith
  linarith

/-- **C33** (partial) The exact condition, for a section whose drag at 90° is not negative: the bracket that the code chooses has a sign
change of the residual if and only if the residual just above 0° is not positive, or it rises from negative to positive over the
propeller-brake bracket, or the residual just below 180° is not positive. -/
theorem bracket_iff_partial (R : Rotor ℝ) (pitch : ℝ) (x : Sec ℝ) (hB : 0 < R.B) (hRhub : 0 < R.Rhub) (h1 : R.Rhub < x.r)
    (h2 : x.r < R.Rtip) (hc : 0 < x.chord) (hcd : 0 ≤ (runBEM R pitch (Real.pi / 2) x).cd) :
    errFun R pitch x (bracket (errFun R pitch x)).1 * errFun R pitch x (bracket (errFun R pitch x)).2 ≤ 0 ↔
      errFun R pitch x (1 / 1000000) ≤ 0 ∨ (errFun R pitch x (-Real.pi / 4) < 0 ∧ 0 < errFun R pitch x (-(1 / 1000000))) ∨
        errFun R pitch x (Real.pi - 1 / 1000000) ≤ 0 := by
  obtain ⟨c1, c2, c3⟩ := bracket_choice (errFun R pitch x)
  have ha : 0 < errFun R pitch x (Real.pi / 2) := by
    rw [errFun_eq]
    exact residual_right_angle _ _ _ _ _ _ _ _ _ _ hB hRhub h1 h2 hc hcd
  have hsgn : ∀ y : ℝ, y * errFun R pitch x (Real.pi / 2) ≤ 0 ↔ y ≤ 0 := fun y =>
    ⟨fun h => by by_contra hn; push Not at hn; linarith [mul_pos hn ha], fun h => mul_nonpos_of_nonpos_of_nonneg h ha.le⟩
  rcases le_or_gt (errFun R pitch x (1 / 1000000)) 0 with h | h
  · rw [c1 ((hsgn _).2 h)]
    exact ⟨fun _ => Or.inl h, fun _ => (hsgn _).2 h⟩
  · have hp := mul_pos h ha
    by_cases h' : errFun R pitch x (-Real.pi / 4) < 0 ∧ 0 < errFun R pitch x (-(1 / 1000000))
    · rw [c2 hp h'.1 h'.2]
      exact ⟨fun _ => Or.inr (Or.inl h'), fun _ => (mul_neg_of_neg_of_pos h'.1 h'.2).le⟩
    · rw [c3 hp h', mul_comm]
      simp only []
      rw [hsgn]
      exact ⟨fun h4 => Or.inr (Or.inr h4), fun h4 => by
        rcases h4 with h4 | h4 | h4
        · exact absurd h4 (not_le.2 h)
        · exact absurd h4 h'
        · exact h4⟩

/-- **C33** (partial) The ordinary case: a section whose drag is not negative and whose lift is negative (by a tiny
solidity-dependent amount) at the inflow angle just above 0°, as for every blade set at an angle above the zero-lift angle of its
airfoils.  The code searches between 0° and 90° and the residual changes sign there. -/
theorem bracket_exists_ordinary_partial (R : Rotor ℝ) (pitch : ℝ) (x : Sec ℝ) (hB : 0 < R.B) (hRhub : 0 < R.Rhub) (h1 : R.Rhub < x.r)
    (h2 : x.r < R.Rtip) (hc : 0 < x.chord) (hVx : 0 < x.Vx) (hVy : 0 < x.Vy)
    (hcd : 0 ≤ (runBEM R pitch (Real.pi / 2) x).cd) (hcd' : 0 ≤ (runBEM R pitch (1 / 1000000) x).cd)
    (hcl : (runBEM R pitch (1 / 1000000) x).cl * Real.cos (1 / 1000000) + (runBEM R pitch (1 / 1000000) x).cd * Real.sin (1 / 1000000) <
      -(4 * Real.sin (1 / 1000000) ^ 2 / solidityOf R.B x.chord x.r)) :
    bracket (errFun R pitch x) = (1 / 1000000, Real.pi / 2) ∧
      errFun R pitch x (1 / 1000000) < 0 ∧ 0 < errFun R pitch x (Real.pi / 2) := by
  have ha : 0 < errFun R pitch x (Real.pi / 2) := by
    rw [errFun_eq]
    exact residual_right_angle _ _ _ _ _ _ _ _ _ _ hB hRhub h1 h2 hc hcd
  have hb : errFun R pitch x (1 / 1000000) < 0 := by
    rw [errFun_eq]
    exact residual_small_angle _ _ _ _ _ _ _ _ _ _ _ hB hRhub h1 h2 hc hcd' (by norm_num) (by linarith [Real.pi_gt_three]) hVx hVy hcl
  exact ⟨(bracket_choice _).1 (mul_neg_of_neg_of_pos hb ha).le, hb, ha⟩

/-- Lift that follows the direction of the flow over a flat plate, as a step function -/
noncomputable def stepAirfoil : AirfoilI ℝ where
  evaluate alpha _ := (if 0 < alpha ∧ alpha ≤ Real.pi / 2 then 1 else -1, 0)
  dclda _ _ := 0
  dcldRe _ _ := 0
  dcdda _ _ := 0
  dcddRe _ _ := 0

/-- The section at 10 m of a blade of solidity 1/10 at that radius, at the local speed ratio 10 -/
noncomputable def stepSec : Sec ℝ := ⟨10, 2 * Real.pi / 3, 0, stepAirfoil, 1, 10⟩

theorem stepSec_residual (phi : ℝ) :
    let cl : ℝ := if 0 < phi ∧ phi ≤ Real.pi / 2 then 1 else -1
    let s := Real.sin phi
    let c := Real.cos phi
    errFun demoRotor 0 stepSec phi =
      bemResidual phi s c (axialInduction phi (cl * c / (40 * 1 * s ^ 2)) 1) (cl * c / (40 * 1 * s ^ 2)) (cl * s / (40 * s * c)) 1 10 := by
  intro cl s c
  have h : errFun demoRotor 0 stepSec phi =
      (inductionFactors 10 (2 * Real.pi / 3) 2 60 phi cl 0 3 1 10 ⟨true, false, false, true⟩).fzero := by
    simp [errFun, runBEM, bemPasses, bemPass, relativeWind, demoRotor, stepSec, stepAirfoil, cl]
  obtain ⟨-, -, h'⟩ := indOut_eq 10 (2 * Real.pi / 3) 2 60 phi cl 0 3 1 10 ⟨true, false, false, true⟩
  rw [h, h']
  have hpi := Real.pi_ne_zero
  have hF : lossSpec ⟨true, false, false, true⟩ 3 10 2 60 phi = 1 := by simp [lossSpec]
  have hσ : ((3 : ℕ) : ℝ) * (2 * Real.pi / 3) / (2 * Real.pi * 10) = 1 / 10 := by
    push_cast
    field_simp
  have hk : kSpec ⟨true, false, false, true⟩ 3 10 (2 * Real.pi / 3) 2 60 phi cl 0 = cl * c / (40 * 1 * s ^ 2) := by
    simp only [kSpec, hF, hσ, cnSpec, if_true, s, c]
    ring
  have hkp : kpSpec ⟨true, false, false, true⟩ 3 10 (2 * Real.pi / 3) 2 60 phi cl 0 = cl * s / (40 * s * c) := by
    simp only [kpSpec, hF, hσ, ctSpec, if_true, s, c]
    ring
  rw [hk, hkp, hF]
  rfl

theorem stepSec_pos (phi : ℝ) (h0 : 0 < phi) (h1 : phi < Real.pi) : 0 < errFun demoRotor 0 stepSec phi := by
  rw [stepSec_residual]
  have hs := Real.sin_pos_of_pos_of_lt_pi h0 h1
  have hsc := Real.sin_sq_add_cos_sq phi
  rcases lt_trichotomy phi (Real.pi / 2) with h | h | h
  · have hc : 0 < Real.cos phi := Real.cos_pos_of_mem_Ioo ⟨by linarith, h⟩
    rw [if_pos ⟨h0, h.le⟩]
    simp only [one_mul, bemResidual, if_pos h0]
    have := loaded_pos (F := 1) h0 hs hc (Real.cos_le_one phi) one_pos (by norm_num) rfl
    have e1 : Real.cos phi / (10 / 1) * (1 - Real.sin phi / (40 * Real.sin phi * Real.cos phi)) = Real.cos phi / 10 - 1 / 400 := by
      field_simp
      ring
    have e2 : Real.sin phi / (1 - axialInduction phi (Real.cos phi / (40 * 1 * Real.sin phi ^ 2)) 1) =
      Real.sin phi * (1 / (1 - axialInduction phi (Real.cos phi / (40 * 1 * Real.sin phi ^ 2)) 1)) := by ring
    rw [e1, e2]
    linarith
  · subst h
    simp only [Real.cos_pi_div_two, Real.sin_pi_div_two, bemResidual, if_pos h0]
    have := inv_axial_gt (k := 0) (F := 1) h0 one_pos (by norm_num) le_rfl
    simp only [mul_zero, zero_div, zero_mul, sub_zero]
    linarith
  · have hc : Real.cos phi < 0 := Real.cos_neg_of_pi_div_two_lt_of_lt h (by linarith)
    rw [if_neg (by rintro ⟨-, h'⟩; linarith)]
    simp only [bemResidual, if_pos h0]
    have := loaded_pos (F := 1) h0 hs (neg_pos.2 hc) (by linarith [Real.neg_one_le_cos phi]) one_pos (by norm_num) rfl
    have e1 : Real.cos phi / (10 / 1) * (1 - -1 * Real.sin phi / (40 * Real.sin phi * Real.cos phi)) = Real.cos phi / 10 + 1 / 400 := by
      have := hc.ne
      field_simp
      ring
    have e2 : Real.sin phi / (1 - axialInduction phi (-1 * Real.cos phi / (40 * 1 * Real.sin phi ^ 2)) 1) =
      Real.sin phi * (1 / (1 - axialInduction phi (-Real.cos phi / (40 * 1 * Real.sin phi ^ 2)) 1)) := by
      rw [neg_one_mul]
      ring
    rw [e1, e2]
    have h5 := inv_axial_gt (phi := phi) (k := -Real.cos phi / (40 * 1 * Real.sin phi ^ 2)) (F := 1) h0 one_pos (by norm_num)
      (by have : 0 < -Real.cos phi := by linarith
          positivity)
    have h6 : Real.sin phi * (5 / 8) ≤ Real.sin phi * (1 / (1 - axialInduction phi (-Real.cos phi / (40 * 1 * Real.sin phi ^ 2)) 1)) := by
      gcongr
    nlinarith

theorem stepSec_neg (phi : ℝ) (h0 : phi < 0) (h1 : -(Real.pi / 2) < phi) : errFun demoRotor 0 stepSec phi < 0 := by
  rw [stepSec_residual]
  have hs : Real.sin phi < 0 := Real.sin_neg_of_neg_of_neg_pi_lt h0 (by linarith [Real.pi_pos])
  have hc : 0 < Real.cos phi := Real.cos_pos_of_mem_Ioo ⟨h1, by linarith⟩
  rw [if_neg (by rintro ⟨h, -⟩; linarith)]
  simp only [bemResidual, if_neg (not_lt.2 h0.le)]
  have e1 : Real.cos phi / (10 / 1) * (1 - -1 * Real.sin phi / (40 * Real.sin phi * Real.cos phi)) = Real.cos phi / 10 + 1 / 400 := by
    have := hs.ne
    field_simp
    ring
  rw [e1]
  have h2 : 0 < 1 - -1 * Real.cos phi / (40 * 1 * Real.sin phi ^ 2) := by
    have h3 : 0 < Real.cos phi / (40 * 1 * Real.sin phi ^ 2) := by
      have := pow_pos (neg_pos.2 hs) 2
      rw [neg_sq] at this
      positivity
    rw [neg_one_mul, neg_div]
    linarith
  nlinarith

/-- **C33** A solution need not exist: with losses switched off, a section of solidity 1/10 without drag at the local speed ratio 10,
whose lift coefficient is 1 for angles of attack between 0 and 90 degrees and -1 elsewhere, has a positive residual everywhere in the
first and third brackets and a negative one everywhere in the second; the root finder cannot succeed. -/
theorem bracket_exists_false :
    demoRotor.Rhub < stepSec.r ∧ stepSec.r < demoRotor.Rtip ∧
    (∀ phi, 1 / 1000000 ≤ phi → phi ≤ Real.pi - 1 / 1000000 → 0 < errFun demoRotor 0 stepSec phi) ∧
    (∀ phi, -Real.pi / 4 ≤ phi → phi ≤ -(1 / 1000000) → errFun demoRotor 0 stepSec phi < 0) ∧
    0 < errFun demoRotor 0 stepSec (bracket (errFun demoRotor 0 stepSec)).1 ∧
    0 < errFun demoRotor 0 stepSec (bracket (errFun demoRotor 0 stepSec)).2 := by
  have hp := fun phi => stepSec_pos phi
  have hn := fun phi => stepSec_neg phi
  have hpi := Real.pi_gt_three
  have hb : bracket (errFun demoRotor 0 stepSec) = (Real.pi / 2, Real.pi - 1 / 1000000) := by
    refine (bracket_choice _).2.2 (mul_pos (hp _ (by norm_num) (by linarith)) (hp _ (by linarith) (by linarith))) ?_
    rintro ⟨-, h⟩
    have := hn (-(1 / 1000000)) (by norm_num) (by linarith)
    linarith
  refine ⟨by norm_num [demoRotor, stepSec], by norm_num [demoRotor, stepSec], fun phi h1 h2 => hp phi (by linarith) (by linarith), fun phi h1 h2 => hn phi (by linarith) (by linarith), ?_, ?_⟩
  · rw [hb]
    exact hp _ (by linarith) (by linarith)
  · rw [hb]
    exact hp _ (by linarith) (by linarith)

/-- The partial theorem applies to the same section with a lift coefficient of 1 at all angles. -/
noncomputable def unitAirfoil : AirfoilI ℝ := { stepAirfoil with evaluate := fun _ _ => (1, 0) }

example : let x : Sec ℝ := { stepSec with af := unitAirfoil }
    errFun demoRotor 0 x (bracket (errFun demoRotor 0 x)).1 * errFun demoRotor 0 x (bracket (errFun demoRotor 0 x)).2 ≤ 0 := by
  intro x
  have hs : Real.sin (1 / 1000000) < 1 / 1000000 := Real.sin_lt (by norm_num)
  have hs0 : 0 < Real.sin (1 / 1000000) := Real.sin_pos_of_pos_of_lt_pi (by norm_num) (by linarith [Real.pi_gt_three])
  have hc : 1 / 2 ≤ Real.cos (1 / 1000000) := by
    have := Real.one_sub_sq_div_two_le_cos (x := 1 / 1000000)
    norm_num at this ⊢
    linarith
  have hc1 := Real.cos_le_one (1 / 1000000)
  have hpi := Real.pi_pos
  have hσ : solidityOf 3 (2 * Real.pi / 3) 10 = 1 / 10 := by
    unfold solidityOf
    push_cast
    field_simp
  refine bracket_exists_partial demoRotor 0 x (by norm_num [demoRotor]) (by norm_num [demoRotor]) (by norm_num [demoRotor, x, stepSec])
    (by norm_num [demoRotor, x, stepSec]) (by simp [x, stepSec]; positivity) (by norm_num [x, stepSec]) (by norm_num [x, stepSec]) ?_ ?_ ?_ ?_
  · simp [runBEM, demoRotor, bemPasses, bemPass, x, unitAirfoil]
  · simp [runBEM, demoRotor, bemPasses, bemPass, x, unitAirfoil]
  · simp only [x, stepSec]
    linarith
  · have e1 : (runBEM demoRotor 0 (Real.pi - 1 / 1000000) x).cd = 0 := by
      simp [runBEM, demoRotor, bemPasses, bemPass, x, unitAirfoil]
    have e2 : (runBEM demoRotor 0 (Real.pi - 1 / 1000000) x).cl = 1 := by
      simp [runBEM, demoRotor, bemPasses, bemPass, x, unitAirfoil]
    have e3 : solidityOf demoRotor.B x.chord x.r = 1 / 10 := hσ
    rw [e1, e2, e3]
    simp only [x, stepSec]
    nlinarith

/-- Not vacuous: the section of `bracket_exists_false`, set at 0.2 rad to the rotor plane. -/
example : let x : Sec ℝ := { stepSec with theta := 1 / 5 }
    bracket (errFun demoRotor 0 x) = (1 / 1000000, Real.pi / 2) ∧
      errFun demoRotor 0 x (1 / 1000000) < 0 ∧ 0 < errFun demoRotor 0 x (Real.pi / 2) := by
  intro x
  have hs : Real.sin (1 / 1000000) < 1 / 1000000 := Real.sin_lt (by norm_num)
  have hs0 : 0 < Real.sin (1 / 1000000) := Real.sin_pos_of_pos_of_lt_pi (by norm_num) (by linarith [Real.pi_gt_three])
  have hc : 1 / 2 ≤ Real.cos (1 / 1000000) := by
    have := Real.one_sub_sq_div_two_le_cos (x := 1 / 1000000)
    norm_num at this ⊢
    linarith
  have hpi := Real.pi_pos
  have hσ : solidityOf 3 (2 * Real.pi / 3) 10 = 1 / 10 := by
    unfold solidityOf
    push_cast
    field_simp
  have e : ∀ phi, (runBEM demoRotor 0 phi x).cd = 0 := fun phi => by
    simp [runBEM, demoRotor, bemPasses, bemPass, x, stepSec, stepAirfoil]
  have e2 : (runBEM demoRotor 0 (1 / 1000000) x).cl = -1 := by
    simp [runBEM, demoRotor, bemPasses, bemPass, x, stepSec, stepAirfoil, relativeWind]
    intro h
    norm_num at h
  refine bracket_exists_ordinary_partial demoRotor 0 x (by norm_num [demoRotor]) (by norm_num [demoRotor])
    (by norm_num [demoRotor, x, stepSec]) (by norm_num [demoRotor, x, stepSec]) (by simp [x, stepSec]; positivity)
    (by norm_num [x, stepSec]) (by norm_num [x, stepSec]) (e _).ge (e _).ge ?_
  have e3 : solidityOf demoRotor.B x.chord x.r = 1 / 10 := hσ
  rw [e, e2, e3]
  nlinarith

end Verif
