import Verif.Lemmas.InductionDv
import Verif.Props.Induction
import Mathlib.Analysis.Complex.ExponentialBounds
import Mathlib.Analysis.Real.Pi.Bounds

/-!
# Forward derivatives of the induction factors and of the relative wind (C20, C21, C25)

Inputs move along differentiable curves `t ↦ X t` with velocity `d`; the routine called at `X t` with the direction `d`
returns the derivatives of the outputs along the curve.
-/

namespace Verif

open Filter Topology

/-! ## Specification -/

/-- The curve `X` of inputs has velocity `d` at `t`. -/
structure IndIn.HasDeriv (X : ℝ → IndIn ℝ) (d : IndIn ℝ) (t : ℝ) : Prop where
  r : HasDerivAt (fun s => (X s).r) d.r t
  chord : HasDerivAt (fun s => (X s).chord) d.chord t
  Rhub : HasDerivAt (fun s => (X s).Rhub) d.Rhub t
  Rtip : HasDerivAt (fun s => (X s).Rtip) d.Rtip t
  phi : HasDerivAt (fun s => (X s).phi) d.phi t
  cl : HasDerivAt (fun s => (X s).cl) d.cl t
  cd : HasDerivAt (fun s => (X s).cd) d.cd t
  Vx : HasDerivAt (fun s => (X s).Vx) d.Vx t
  Vy : HasDerivAt (fun s => (X s).Vy) d.Vy t

/-- The primal routine on a record of inputs. -/
noncomputable def IndIn.eval (x : IndIn ℝ) (B : ℕ) (o : BemOpts) : IndOut ℝ :=
  inductionFactors x.r x.chord x.Rhub x.Rtip x.phi x.cl x.cd B x.Vx x.Vy o

/-- The points of differentiability: no division by zero, loss factors inside the open range of `acos`, not on an edge
of the guard of Buhl's formula, not at an inflow angle where the routine changes branch. -/
structure IndRegular (x : IndIn ℝ) (B : ℕ) (o : BemOpts) : Prop where
  r : x.r ≠ 0
  sphi : Real.sin x.phi ≠ 0
  cphi : Real.cos x.phi ≠ 0
  tip : o.tipLoss = true → 0 < (B : ℝ) / 2 * (x.Rtip - x.r) / (x.r * Real.sin x.phi)
  hub : o.hubLoss = true → x.Rhub ≠ 0 ∧ 0 < (B : ℝ) / 2 * (x.r - x.Rhub) / (x.Rhub * Real.sin x.phi)
  axial : AxialRegular x.phi (kSpec o B x.r x.chord x.Rhub x.Rtip x.phi x.cl x.cd)
    (lossSpec o B x.r x.Rhub x.Rtip x.phi)
  kp : o.wakeRot = true → kpSpec o B x.r x.chord x.Rhub x.Rtip x.phi x.cl x.cd ≠ 1
  Vx : x.Vx ≠ 0
  Vy : x.Vy ≠ 0

/-! ## Helpers -/

theorem prandtl_pos {B : ℕ} {d R phi : ℝ} (h : 0 < (B : ℝ) / 2 * d / (R * Real.sin phi)) :
    0 < prandtl B d R phi := by
  unfold prandtl
  have h1 : Real.exp (-((B : ℝ) / 2 * d / (R * Real.sin phi))) < 1 := by rw [Real.exp_lt_one_iff]; linarith
  have := Real.arccos_pos.mpr h1
  have := Real.pi_pos
  positivity

theorem IndRegular.loss_pos {x : IndIn ℝ} {B : ℕ} {o : BemOpts} (h : IndRegular x B o) :
    0 < lossSpec o B x.r x.Rhub x.Rtip x.phi := by
  unfold lossSpec
  refine mul_pos ?_ ?_
  · split_ifs with h1
    · exact prandtl_pos (h.tip h1)
    · exact one_pos
  · split_ifs with h1
    · exact prandtl_pos (h.hub h1).2
    · exact one_pos

theorem axial_ne_one {phi k F : ℝ} (hp : 0 < phi) (h : AxialRegular phi k F) : axialInduction phi k F ≠ 1 := by
  have mom : k ≤ 2 / 3 → k ≠ -1 → axialInduction phi k F ≠ 1 := by
    intro h1 h2 h3
    rw [axial_momentum hp h1, div_eq_one_iff_eq (fun h0 => h2 (by linarith))] at h3
    linarith
  rcases h with ⟨_, h1, h2⟩ | ⟨_, h1, _, _⟩ | ⟨_, h2, h3, h4⟩ | ⟨h1, _⟩
  · exact mom h1.le h2
  · exact mom h1.le (by rw [h1]; norm_num)
  · have hw := lt_sqrt_buhlG2 h3 h2
    rw [← buhlG3_real] at h4
    rcases lt_or_gt_of_ne h4 with h5 | h5
    · rw [axial_guard hp h2 h5]
      have : 0 < 1 / 2 / Real.sqrt (buhlG2 F k) := by
        have : 0 < Real.sqrt (buhlG2 F k) := by linarith
        positivity
      linarith
    · rw [axial_buhl hp h3 h2 h5.le]
      have : 0 < 1 / (Real.sqrt (buhlG2 F k) + (5 / 3 - F)) := by
        have : 0 < Real.sqrt (buhlG2 F k) + (5 / 3 - F) := by linarith
        positivity
      linarith
  · linarith

theorem apDv_deriv {p : ℝ → ℝ} {p' t : ℝ} (hp : HasDerivAt p p' t) (h : 1 - p t ≠ 0) :
    HasDerivAt (fun t => p t / (1 - p t)) ((p t / (-p t + 1) + 1) * p' / (1 - p t)) t := by
  refine (hp.div (hp.const_sub 1) h).congr_deriv ?_
  rw [neg_add_eq_sub]
  have e : p t = 1 - (1 - p t) := by ring
  generalize 1 - p t = D at *
  rw [e]
  field_simp
  ring

/-! ## C25 -/

/-- **C25** The derivative routine of the induction factors returns the same values as the routine itself, for all
inputs and all directions. -/
theorem inductionFactorsDv_values (x d : IndIn ℝ) (B : ℕ) (o : BemOpts) :
    (inductionFactorsDv x d B o).fzero = (x.eval B o).fzero ∧
    (inductionFactorsDv x d B o).a = (x.eval B o).a ∧
    (inductionFactorsDv x d B o).ap = (x.eval B o).ap := by
  unfold inductionFactorsDv IndIn.eval inductionFactors
  simp only [residualDv_fst, axialDv_fst, bemKDv_fst, solidityDv_fst, normalDv_fst, tipDv_fst, hubDv_fst, true_and]
  cases o.wakeRot
  · simp
  · simp only [Bool.not_true, Bool.false_eq_true, if_false, bemKpDv_fst, solidityDv_fst, tangDv_fst, true_and]
    rw [neg_add_eq_sub]

/-! ## C20 -/

/-- **C20** At every point of differentiability and along every differentiable curve of the nine inputs, the derivative
routine returns the derivatives of the residual and of both induction factors. -/
theorem inductionFactorsDv_correct (X : ℝ → IndIn ℝ) (d : IndIn ℝ) (t : ℝ) (B : ℕ) (o : BemOpts)
    (hX : IndIn.HasDeriv X d t) (h : IndRegular (X t) B o) :
    HasDerivAt (fun s => ((X s).eval B o).fzero) (inductionFactorsDv (X t) d B o).fzerod t ∧
    HasDerivAt (fun s => ((X s).eval B o).a) (inductionFactorsDv (X t) d B o).ad t ∧
    HasDerivAt (fun s => ((X s).eval B o).ap) (inductionFactorsDv (X t) d B o).apd t := by
  have hF0 := h.loss_pos
  have hphi0 : (X t).phi ≠ 0 := by
    intro h0
    apply h.sphi
    rw [h0, Real.sin_zero]
  -- the specification quantities are those of the routine
  have eF := loss_eq o B (X t).r (X t).Rhub (X t).Rtip (X t).phi
  have hs : HasDerivAt (fun s => Real.sin (X s).phi) (Real.cos (X t).phi * d.phi) t := hX.phi.sin
  have hc : HasDerivAt (fun s => Real.cos (X s).phi) (-(Real.sin (X t).phi * d.phi)) t :=
    hX.phi.cos.congr_deriv (by ring)
  have hsg := solidityDv_deriv B hX.chord hX.r h.r
  have hcn := normalDv_deriv o.useCd hX.cl hX.cd hs hc
  have hct := tangDv_deriv o.useCd hX.cl hX.cd hs hc
  have htip := tipDv_deriv o.tipLoss B hX.r hX.Rtip hs (fun hu => ⟨h.r, h.sphi, h.tip hu⟩)
  have hhub := hubDv_deriv o.hubLoss B hX.r hX.Rhub hs (fun hu => ⟨(h.hub hu).1, h.sphi, (h.hub hu).2⟩)
  have hF := (htip.mul hhub).congr_deriv
    (show _ = hubFactor o.hubLoss B (X t).r (X t).Rhub (Real.sin (X t).phi)
        * (tipDv o.tipLoss B (X t).r (X t).Rtip (Real.sin (X t).phi) d.r d.Rtip (Real.cos (X t).phi * d.phi)).2
      + tipFactor o.tipLoss B (X t).r (X t).Rtip (Real.sin (X t).phi)
        * (hubDv o.hubLoss B (X t).r (X t).Rhub (Real.sin (X t).phi) d.r d.Rhub (Real.cos (X t).phi * d.phi)).2 by ring)
  have hF0' : (fun s => tipFactor o.tipLoss B (X s).r (X s).Rtip (Real.sin (X s).phi)) t
      * (fun s => hubFactor o.hubLoss B (X s).r (X s).Rhub (Real.sin (X s).phi)) t ≠ 0 := by
    simp only
    rw [eF]
    exact hF0.ne'
  have hk := bemKDv_deriv hsg hcn hF hs hF0' h.sphi
  have hkp := bemKpDv_deriv hsg hct hF hs hc hF0' h.sphi h.cphi
  have spec := indOut_eq (X t).r (X t).chord (X t).Rhub (X t).Rtip (X t).phi (X t).cl (X t).cd B (X t).Vx (X t).Vy o
  simp only [Pi.mul_apply] at hk hkp hF
  -- values of `k`, `kp` in terms of the specification
  have ek : bemK (solidity B (X t).chord (X t).r)
      (normalCoef o.useCd (X t).cl (X t).cd (Real.sin (X t).phi) (Real.cos (X t).phi))
      (tipFactor o.tipLoss B (X t).r (X t).Rtip (Real.sin (X t).phi)
        * hubFactor o.hubLoss B (X t).r (X t).Rhub (Real.sin (X t).phi)) (Real.sin (X t).phi)
      = kSpec o B (X t).r (X t).chord (X t).Rhub (X t).Rtip (X t).phi (X t).cl (X t).cd := by
    rw [eF]
    have hcn : normalCoef o.useCd (X t).cl (X t).cd (Real.sin (X t).phi) (Real.cos (X t).phi)
        = cnSpec o (X t).cl (X t).cd (X t).phi := by
      simp only [normalCoef, cnSpec]
      cases o.useCd <;> simp
    rw [hcn]
    simp only [bemK, solidity, kSpec, num_real, div_div]
    push_cast
    simp only [div_eq_mul_inv, mul_inv]
    ring
  have ekp : bemKp (solidity B (X t).chord (X t).r)
      (tangCoef o.useCd (X t).cl (X t).cd (Real.sin (X t).phi) (Real.cos (X t).phi))
      (tipFactor o.tipLoss B (X t).r (X t).Rtip (Real.sin (X t).phi)
        * hubFactor o.hubLoss B (X t).r (X t).Rhub (Real.sin (X t).phi)) (Real.sin (X t).phi) (Real.cos (X t).phi)
      = kpSpec o B (X t).r (X t).chord (X t).Rhub (X t).Rtip (X t).phi (X t).cl (X t).cd := by
    rw [eF]
    have hct : tangCoef o.useCd (X t).cl (X t).cd (Real.sin (X t).phi) (Real.cos (X t).phi)
        = ctSpec o (X t).cl (X t).cd (X t).phi := by
      simp only [tangCoef, ctSpec]
      cases o.useCd <;> simp
    rw [hct]
    simp only [bemKp, solidity, kpSpec, num_real, div_div]
    push_cast
    simp only [div_eq_mul_inv, mul_inv]
    ring
  have hreg := h.axial
  rw [← ek, ← eF] at hreg
  have ha := axialDv_deriv hX.phi.continuousAt hk hF hreg
  have ha1 : 0 < (X t).phi → axialInduction (X t).phi _ _ ≠ 1 := fun hp => axial_ne_one hp hreg
  refine ⟨?_, ?_, ?_⟩
  · cases hw : o.wakeRot
    · have := residualDv_deriv hX.phi.continuousAt hs hc ha hk (hasDerivAt_const t (0 : ℝ)) hX.Vx hX.Vy hphi0 ha1
        h.Vx h.Vy
      simp only [inductionFactorsDv, IndIn.eval, inductionFactors, hw, Bool.not_false, if_true, axialDv_fst,
        bemKDv_fst, solidityDv_fst, normalDv_fst, tipDv_fst, hubDv_fst, tangDv_fst]
      exact this
    · have := residualDv_deriv hX.phi.continuousAt hs hc ha hk hkp hX.Vx hX.Vy hphi0 ha1
        h.Vx h.Vy
      simp only [inductionFactorsDv, IndIn.eval, inductionFactors, hw, Bool.not_true, Bool.false_eq_true, if_false,
        axialDv_fst, bemKDv_fst, bemKpDv_fst, solidityDv_fst, normalDv_fst, tipDv_fst, hubDv_fst, tangDv_fst]
      exact this
  · simp only [inductionFactorsDv, IndIn.eval, inductionFactors, axialDv_fst,
        bemKDv_fst, bemKpDv_fst, solidityDv_fst, normalDv_fst, tipDv_fst, hubDv_fst, tangDv_fst]
    exact ha
  · cases hw : o.wakeRot
    · simp only [inductionFactorsDv, IndIn.eval, inductionFactors, hw, Bool.not_false, if_true]
      exact hasDerivAt_const t _
    · have h1 := h.kp hw
      rw [← ekp] at h1
      have h1' := sub_ne_zero.mpr h1.symm
      simp only [inductionFactorsDv, IndIn.eval, inductionFactors, hw, Bool.not_true, Bool.false_eq_true, if_false,
        axialDv_fst, bemKDv_fst, bemKpDv_fst, solidityDv_fst, normalDv_fst, tipDv_fst, hubDv_fst, tangDv_fst]
      exact apDv_deriv hkp h1'

/-! ### A case meeting the hypotheses: a blade element with all options on -/

theorem prandtl_ge {B : ℕ} {d R phi : ℝ} (h : 1 ≤ (B : ℝ) / 2 * d / (R * Real.sin phi)) : 2 / 3 ≤ prandtl B d R phi := by
  unfold prandtl
  have h2 : Real.exp (-((B : ℝ) / 2 * d / (R * Real.sin phi))) ≤ 1 / 2 := by
    have h3 : Real.exp (-((B : ℝ) / 2 * d / (R * Real.sin phi))) ≤ Real.exp (-1) := Real.exp_le_exp.mpr (by linarith)
    have h4 : (2 : ℝ) ≤ Real.exp 1 := by have := Real.add_one_le_exp (1 : ℝ); linarith
    have h5 : Real.exp (-1) ≤ 1 / 2 := by
      rw [Real.exp_neg, inv_eq_one_div]
      exact one_div_le_one_div_of_le two_pos h4
    linarith
  have h3 : Real.pi / 3 ≤ Real.arccos (Real.exp (-((B : ℝ) / 2 * d / (R * Real.sin phi)))) := by
    have h6 := Real.antitone_arccos h2
    have h7 : Real.arccos (1 / 2) = Real.pi / 3 := by
      rw [← Real.cos_pi_div_three]
      exact Real.arccos_cos (by positivity) (by linarith [Real.pi_pos])
    linarith
  have hp := Real.pi_pos
  calc (2 : ℝ) / 3 = 2 / Real.pi * (Real.pi / 3) := by field_simp
    _ ≤ _ := by gcongr

/-- A blade element of a three-bladed rotor. -/
noncomputable def exampleElement : IndIn ℝ :=
  ⟨2, 1 / 10, 1, 4, Real.pi / 6, 1, 1 / 100, 10, 50⟩

theorem exampleElement_regular : IndRegular exampleElement 3 ⟨true, true, true, true⟩ := by
  have hs : Real.sin (Real.pi / 6) = 1 / 2 := Real.sin_pi_div_six
  have hc : Real.cos (Real.pi / 6) = Real.sqrt 3 / 2 := Real.cos_pi_div_six
  have h3 : 1 < Real.sqrt 3 := by
    rw [Real.lt_sqrt (by norm_num)]; norm_num
  have h3' : Real.sqrt 3 < 2 := by
    rw [Real.sqrt_lt' (by norm_num)]; norm_num
  have hpi := Real.pi_gt_three
  have hF1 : 2 / 3 ≤ prandtl 3 (4 - 2) 2 (Real.pi / 6) := prandtl_ge (by rw [hs]; norm_num)
  have hF2 : 2 / 3 ≤ prandtl 3 (2 - 1) 1 (Real.pi / 6) := prandtl_ge (by rw [hs]; norm_num)
  have hF : 4 / 9 ≤ lossSpec ⟨true, true, true, true⟩ 3 2 1 4 (Real.pi / 6) := by
    simp only [lossSpec, if_true]
    nlinarith
  have hsig : (3 : ℝ) * (1 / 10) / (2 * Real.pi * 2) ≤ 1 / 40 := by
    rw [div_le_iff₀ (by positivity)]
    nlinarith
  have hsig0 : 0 < (3 : ℝ) * (1 / 10) / (2 * Real.pi * 2) := by positivity
  refine ⟨by norm_num [exampleElement], ?_, ?_, ?_, ?_, ?_, ?_, by norm_num [exampleElement],
    by norm_num [exampleElement]⟩
  · simp only [exampleElement, hs]; norm_num
  · simp only [exampleElement, hc]; positivity
  · intro _
    simp only [exampleElement, hs]; norm_num
  · intro _
    simp only [exampleElement, hs]; norm_num
  · left
    simp only [exampleElement]
    have hk0 : 0 ≤ kSpec ⟨true, true, true, true⟩ 3 2 (1 / 10) 1 4 (Real.pi / 6) 1 (1 / 100) := by
      simp only [kSpec, cnSpec, if_true, hs, hc]
      have : 0 < lossSpec ⟨true, true, true, true⟩ 3 2 1 4 (Real.pi / 6) := by linarith
      positivity
    refine ⟨by positivity, ?_, by linarith⟩
    simp only [kSpec, cnSpec, if_true, hs, hc]
    push_cast
    rw [div_lt_iff₀ (by nlinarith)]
    nlinarith
  · intro _
    simp only [exampleElement]
    apply ne_of_lt
    simp only [kpSpec, ctSpec, if_true, hs, hc]
    push_cast
    have hd : 0 < 4 * lossSpec ⟨true, true, true, true⟩ 3 2 1 4 (Real.pi / 6) * (1 / 2) * (Real.sqrt 3 / 2) := by
      have : 0 < lossSpec ⟨true, true, true, true⟩ 3 2 1 4 (Real.pi / 6) := by linarith
      positivity
    rw [div_lt_iff₀ hd]
    nlinarith

/-- The derivative of the residual with respect to the inflow angle at the example element. -/
example : HasDerivAt (fun phi => (IndIn.eval { exampleElement with phi := phi } 3 ⟨true, true, true, true⟩).fzero)
    (inductionFactorsDv exampleElement ⟨0, 0, 0, 0, 1, 0, 0, 0, 0⟩ 3 ⟨true, true, true, true⟩).fzerod (Real.pi / 6) :=
  (inductionFactorsDv_correct (fun phi => { exampleElement with phi := phi }) ⟨0, 0, 0, 0, 1, 0, 0, 0, 0⟩
    (Real.pi / 6) 3 ⟨true, true, true, true⟩
    ⟨hasDerivAt_const _ _, hasDerivAt_const _ _, hasDerivAt_const _ _, hasDerivAt_const _ _, hasDerivAt_id _,
      hasDerivAt_const _ _, hasDerivAt_const _ _, hasDerivAt_const _ _, hasDerivAt_const _ _⟩
    exampleElement_regular).1

/-! ### The direction enters linearly -/

/-- `s • d + e` -/
def IndIn.comb (s : ℝ) (d e : IndIn ℝ) : IndIn ℝ :=
  ⟨s * d.r + e.r, s * d.chord + e.chord, s * d.Rhub + e.Rhub, s * d.Rtip + e.Rtip, s * d.phi + e.phi,
    s * d.cl + e.cl, s * d.cd + e.cd, s * d.Vx + e.Vx, s * d.Vy + e.Vy⟩

theorem prandtlDv_lin (f s d e : ℝ) : (prandtlDv f (s * d + e)).2 = s * (prandtlDv f d).2 + (prandtlDv f e).2 := by
  simp only [prandtlDv, num_real]
  split_ifs <;> (simp only [div_eq_mul_inv]; ring)

theorem axialDv_lin (phi k f s k1 f1 k2 f2 : ℝ) :
    (axialDv phi k f (s * k1 + k2) (s * f1 + f2)).2 = s * (axialDv phi k f k1 f1).2 + (axialDv phi k f k2 f2).2 := by
  simp only [axialDv]
  split_ifs <;> (simp only [div_eq_mul_inv]; ring)

/-- **C20** The returned derivatives depend linearly on the direction, also where the routine is not differentiable:
the columns for the unit directions determine them all. -/
theorem inductionFactorsDv_linear (x d e : IndIn ℝ) (s : ℝ) (B : ℕ) (o : BemOpts) :
    (inductionFactorsDv x (IndIn.comb s d e) B o).fzerod
      = s * (inductionFactorsDv x d B o).fzerod + (inductionFactorsDv x e B o).fzerod ∧
    (inductionFactorsDv x (IndIn.comb s d e) B o).ad
      = s * (inductionFactorsDv x d B o).ad + (inductionFactorsDv x e B o).ad ∧
    (inductionFactorsDv x (IndIn.comb s d e) B o).apd
      = s * (inductionFactorsDv x d B o).apd + (inductionFactorsDv x e B o).apd := by
  have hsg : ∀ c1 r1 c2 r2, (solidityDv B x.chord x.r (s * c1 + c2) (s * r1 + r2)).2
      = s * (solidityDv B x.chord x.r c1 r1).2 + (solidityDv B x.chord x.r c2 r2).2 := by
    intros; simp only [solidityDv, div_eq_mul_inv]; ring
  have htip : ∀ p q r1 R1 s1 r2 R2 s2, (tipDv o.tipLoss B x.r p q (s * r1 + r2) (s * R1 + R2) (s * s1 + s2)).2
      = s * (tipDv o.tipLoss B x.r p q r1 R1 s1).2 + (tipDv o.tipLoss B x.r p q r2 R2 s2).2 := by
    intros
    unfold tipDv
    split_ifs
    · rw [← prandtlDv_lin]; congr 2; simp only [div_eq_mul_inv]; ring
    · simp
  have hhub : ∀ p q r1 R1 s1 r2 R2 s2, (hubDv o.hubLoss B x.r p q (s * r1 + r2) (s * R1 + R2) (s * s1 + s2)).2
      = s * (hubDv o.hubLoss B x.r p q r1 R1 s1).2 + (hubDv o.hubLoss B x.r p q r2 R2 s2).2 := by
    intros
    unfold hubDv
    split_ifs
    · rw [← prandtlDv_lin]; congr 2; simp only [div_eq_mul_inv]; ring
    · simp
  have hcn : ∀ p q a1 b1 c1 d1 a2 b2 c2 d2,
      (normalDv o.useCd x.cl x.cd p q (s * a1 + a2) (s * b1 + b2) (s * c1 + c2) (s * d1 + d2)).2
      = s * (normalDv o.useCd x.cl x.cd p q a1 b1 c1 d1).2 + (normalDv o.useCd x.cl x.cd p q a2 b2 c2 d2).2 := by
    intros; unfold normalDv; split_ifs <;> (simp only; ring)
  have hct : ∀ p q a1 b1 c1 d1 a2 b2 c2 d2,
      (tangDv o.useCd x.cl x.cd p q (s * a1 + a2) (s * b1 + b2) (s * c1 + c2) (s * d1 + d2)).2
      = s * (tangDv o.useCd x.cl x.cd p q a1 b1 c1 d1).2 + (tangDv o.useCd x.cl x.cd p q a2 b2 c2 d2).2 := by
    intros; unfold tangDv; split_ifs <;> (simp only; ring)
  have hk : ∀ p q u v a1 b1 c1 d1 a2 b2 c2 d2,
      (bemKDv p q u v (s * a1 + a2) (s * b1 + b2) (s * c1 + c2) (s * d1 + d2)).2
      = s * (bemKDv p q u v a1 b1 c1 d1).2 + (bemKDv p q u v a2 b2 c2 d2).2 := by
    intros; simp only [bemKDv, div_eq_mul_inv]; ring
  have hkp : ∀ p q u v w a1 b1 c1 d1 e1 a2 b2 c2 d2 e2,
      (bemKpDv p q u v w (s * a1 + a2) (s * b1 + b2) (s * c1 + c2) (s * d1 + d2) (s * e1 + e2)).2
      = s * (bemKpDv p q u v w a1 b1 c1 d1 e1).2 + (bemKpDv p q u v w a2 b2 c2 d2 e2).2 := by
    intros; simp only [bemKpDv, div_eq_mul_inv]; ring
  have hres : ∀ p q u v w y s1 c1 a1 k1 kp1 s2 c2 a2 k2 kp2,
      (residualDv x.phi p q u v w x.Vx x.Vy (s * s1 + s2) (s * c1 + c2) (s * a1 + a2) (s * k1 + k2) (s * kp1 + kp2)
        (s * d.Vx + e.Vx) (s * d.Vy + e.Vy)).2 + 0 * y
      = s * (residualDv x.phi p q u v w x.Vx x.Vy s1 c1 a1 k1 kp1 d.Vx d.Vy).2
        + (residualDv x.phi p q u v w x.Vx x.Vy s2 c2 a2 k2 kp2 e.Vx e.Vy).2 := by
    intros; unfold residualDv; split_ifs <;> (simp only [div_eq_mul_inv]; ring)
  have e1 : ∀ c : ℝ, c * (s * d.phi + e.phi) = s * (c * d.phi) + c * e.phi := fun c => by ring
  have e2 : ∀ c : ℝ, -(s * (c * d.phi) + c * e.phi) = s * -(c * d.phi) + -(c * e.phi) := fun c => by ring
  have e3 : ∀ a b c1 c2 d1 d2 : ℝ, a * (s * c1 + c2) + b * (s * d1 + d2)
      = s * (a * c1 + b * d1) + (a * c2 + b * d2) := fun a b c1 c2 d1 d2 => by ring
  have hres' := fun p q u v w => hres p q u v w 0
  simp only [mul_zero, add_zero] at hres'
  unfold inductionFactorsDv
  simp only [solidityDv_fst, normalDv_fst, tipDv_fst, hubDv_fst, tangDv_fst, bemKDv_fst, bemKpDv_fst, axialDv_fst,
    IndIn.comb, e1, e2, hsg, htip, hhub, hcn, hct, e3, hk, hkp, axialDv_lin]
  cases o.wakeRot
  · refine ⟨?_, trivial, ?_⟩
    · have := hres'
      simp only [Bool.not_false, if_true]
      rw [← hres']
      simp
    · simp
  · refine ⟨?_, trivial, ?_⟩
    · simp only [Bool.not_true, Bool.false_eq_true, if_false, bemKpDv_fst, hkp]
      exact hres' _ _ _ _ _ _ _ _ _ _ _ _ _ _ _
    · simp only [Bool.not_true, Bool.false_eq_true, if_false, div_eq_mul_inv, bemKpDv_fst, hkp]
      ring

/-! ## C21 -/

/-- The curve `X` of inputs has velocity `d` at `t`. -/
structure RelIn.HasDeriv (X : ℝ → RelIn ℝ) (d : RelIn ℝ) (t : ℝ) : Prop where
  phi : HasDerivAt (fun s => (X s).phi) d.phi t
  a : HasDerivAt (fun s => (X s).a) d.a t
  ap : HasDerivAt (fun s => (X s).ap) d.ap t
  Vx : HasDerivAt (fun s => (X s).Vx) d.Vx t
  Vy : HasDerivAt (fun s => (X s).Vy) d.Vy t
  pitch : HasDerivAt (fun s => (X s).pitch) d.pitch t
  chord : HasDerivAt (fun s => (X s).chord) d.chord t
  theta : HasDerivAt (fun s => (X s).theta) d.theta t

/-- The primal routine on a record of inputs. -/
noncomputable def RelIn.eval (x : RelIn ℝ) (rho mu : ℝ) : WindOut ℝ :=
  relativeWind x.phi x.a x.ap x.Vx x.Vy x.pitch x.chord x.theta rho mu

/-- Not at an induction factor where the routine changes formula, no division by zero, speed not zero. -/
def RelRegular (x : RelIn ℝ) : Prop :=
  (10 < |x.a| ∧ Real.cos x.phi ≠ 0) ∨
  (|x.a| < 10 ∧ 10 < |x.ap| ∧ Real.sin x.phi ≠ 0) ∨
  (|x.a| < 10 ∧ |x.ap| < 10 ∧ (x.Vx * (1 - x.a) ≠ 0 ∨ x.Vy * (1 + x.ap) ≠ 0))

theorem relSpeedDv_fst (x d : RelIn ℝ) : (relSpeedDv x d).1 = relSpeed x.phi x.a x.ap x.Vx x.Vy := by
  unfold relSpeedDv relSpeed
  simp only [abs0_real, real_nabs]
  split_ifs
  · simp only [add_comm]
  · simp only [neg_add_eq_sub]
  · rfl
  · rfl

/-- **C25** The derivative routine of the relative wind returns the same values as the routine itself. -/
theorem relativeWindDv_values (x d : RelIn ℝ) (rho mu : ℝ) :
    (relativeWindDv x d rho mu).alpha = (x.eval rho mu).alpha ∧
    (relativeWindDv x d rho mu).W = (x.eval rho mu).W ∧
    (relativeWindDv x d rho mu).Re = (x.eval rho mu).Re := by
  simp only [relativeWindDv, RelIn.eval, relativeWind, relSpeedDv_fst, and_self]

/-- **C21** The derivative routine of the relative wind returns the derivatives of angle of attack, speed and Reynolds
number along every differentiable curve of its inputs. -/
theorem relativeWindDv_correct (X : ℝ → RelIn ℝ) (d : RelIn ℝ) (t rho mu : ℝ) (hX : RelIn.HasDeriv X d t)
    (h : RelRegular (X t)) :
    HasDerivAt (fun s => ((X s).eval rho mu).alpha) (relativeWindDv (X t) d rho mu).alphad t ∧
    HasDerivAt (fun s => ((X s).eval rho mu).W) (relativeWindDv (X t) d rho mu).Wd t ∧
    HasDerivAt (fun s => ((X s).eval rho mu).Re) (relativeWindDv (X t) d rho mu).Red t := by
  have e10 : (Num.nat 10 : ℝ) = 10 := by norm_num [num_real]
  have hac : ContinuousAt (fun s => |(X s).a|) t := hX.a.continuousAt.abs
  have hapc : ContinuousAt (fun s => |(X s).ap|) t := hX.ap.continuousAt.abs
  have hW : HasDerivAt (fun s => relSpeed (X s).phi (X s).a (X s).ap (X s).Vx (X s).Vy) (relSpeedDv (X t) d).2 t := by
    rcases h with ⟨h1, h2⟩ | ⟨h1, h2, h3⟩ | ⟨h1, h2, h3⟩
    · simp only [relSpeedDv, abs0_real, e10, h1, if_true]
      refine (((hX.Vy.mul (hX.ap.const_add 1)).div hX.phi.cos h2).congr_deriv ?_).congr_of_eventuallyEq ?_
      · simp only [num_real, Pi.mul_apply]
        field_simp
        ring
      · filter_upwards [hac.eventually (lt_mem_nhds h1)] with s a
        simp only [relSpeed, real_nabs, e10, a, if_true]
        rfl
    · simp only [relSpeedDv, abs0_real, e10, not_lt.mpr h1.le, h2, if_false, if_true]
      refine (((hX.Vx.mul (hX.a.const_sub 1)).div hX.phi.sin h3).congr_deriv ?_).congr_of_eventuallyEq ?_
      · simp only [num_real, Pi.mul_apply]
        field_simp
        ring
      · filter_upwards [hac.eventually (gt_mem_nhds h1), hapc.eventually (lt_mem_nhds h2)] with s a b
        simp only [relSpeed, real_nabs, e10, not_lt.mpr (le_of_lt a), b, if_true, if_false]
        rfl
    · have hpos : ((X t).Vx * (1 - (X t).a)) ^ 2 + ((X t).Vy * (1 + (X t).ap)) ^ 2 ≠ 0 := by
        rcases h3 with h3 | h3 <;> positivity
      simp only [relSpeedDv, abs0_real, e10, not_lt.mpr h1.le, not_lt.mpr h2.le, if_false]
      have := (((hX.Vx.mul (hX.a.const_sub 1)).pow 2).add ((hX.Vy.mul (hX.ap.const_add 1)).pow 2)).sqrt hpos
      refine (this.congr_deriv ?_).congr_of_eventuallyEq ?_
      · simp only [num_real, hpos, decide_false, Bool.false_eq_true, if_false, Pi.mul_apply, Pi.add_apply, Pi.pow_apply]
        push_cast
        congr 1
        ring
      · filter_upwards [hac.eventually (gt_mem_nhds h1), hapc.eventually (gt_mem_nhds h2)] with s a b
        simp only [relSpeed, real_nabs, e10, not_lt.mpr (le_of_lt a), not_lt.mpr (le_of_lt b), if_false, real_sq]
        rfl
  refine ⟨?_, hW, ?_⟩
  · exact (hX.phi.sub (hX.theta.add hX.pitch)).congr_deriv (by simp only [relativeWindDv]; ring)
  · refine (((hW.const_mul rho).mul hX.chord).div_const mu).congr_deriv ?_
    simp only [relativeWindDv, relSpeedDv_fst]
    ring

/-- A case meeting the hypotheses. -/
example : RelRegular ⟨1 / 10, 1 / 3, 1 / 100, 10, 50, 0, 1, 0⟩ := by
  right; right
  norm_num [abs_lt]

/-- `s • d + e` -/
def RelIn.comb (s : ℝ) (d e : RelIn ℝ) : RelIn ℝ :=
  ⟨s * d.phi + e.phi, s * d.a + e.a, s * d.ap + e.ap, s * d.Vx + e.Vx, s * d.Vy + e.Vy, s * d.pitch + e.pitch,
    s * d.chord + e.chord, s * d.theta + e.theta⟩

/-- **C21** The returned derivatives depend linearly on the direction. -/
theorem relativeWindDv_linear (x d e : RelIn ℝ) (s rho mu : ℝ) :
    (relativeWindDv x (RelIn.comb s d e) rho mu).alphad
      = s * (relativeWindDv x d rho mu).alphad + (relativeWindDv x e rho mu).alphad ∧
    (relativeWindDv x (RelIn.comb s d e) rho mu).Wd
      = s * (relativeWindDv x d rho mu).Wd + (relativeWindDv x e rho mu).Wd ∧
    (relativeWindDv x (RelIn.comb s d e) rho mu).Red
      = s * (relativeWindDv x d rho mu).Red + (relativeWindDv x e rho mu).Red := by
  have hw : (relSpeedDv x (RelIn.comb s d e)).2 = s * (relSpeedDv x d).2 + (relSpeedDv x e).2 := by
    unfold relSpeedDv RelIn.comb
    split_ifs <;> (simp only [div_eq_mul_inv]; try split_ifs) <;> ring
  refine ⟨?_, hw, ?_⟩
  · simp only [relativeWindDv, RelIn.comb]; ring
  · simp only [relativeWindDv, hw, relSpeedDv_fst, div_eq_mul_inv]
    simp only [RelIn.comb]
    ring

end Verif
