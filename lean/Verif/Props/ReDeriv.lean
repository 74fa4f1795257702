import Verif.Props.LoadsDeriv
import Verif.Spec.Demo

/-!
# Reynolds-number dependent airfoils: the reported load derivatives are not exact (C40)

The witness is a section with an explicit family of solutions: the inflow angle is the parameter of the curve, and the
radius is chosen such that the residual is zero.
-/

namespace Verif

open Filter Topology

/-- Lift `1 + m (Re - 5)`, no drag. -/
noncomputable def reAirfoil (m : ℝ) : AirfoilI ℝ where
  evaluate _ Re := (1 + m * (Re - 5), 0)
  dclda _ _ := 0
  dcldRe _ _ := m
  dcdda _ _ := 0
  dcddRe _ _ := 0

theorem reAirfoil_diff (m alpha Re : ℝ) : (reAirfoil m).DiffAt alpha Re := by
  constructor
  · have h : HasFDerivAt (fun p : ℝ × ℝ => p.2) (ContinuousLinearMap.snd ℝ ℝ ℝ) (alpha, Re) := hasFDerivAt_snd
    have := ((h.sub_const 5).const_mul m).const_add 1
    simpa [reAirfoil] using this
  · simpa [reAirfoil] using (hasFDerivAt_const (0 : ℝ) (alpha, Re))

/-- No losses, no wake rotation, unit density and viscosity. -/
noncomputable def reRotor : Rotor ℝ :=
  { demoRotor with rho := 1, mu := 1, opts := ⟨false, false, false, false⟩, derivatives := true }

/-- `k` on the solution curve. -/
noncomputable def reK (s : ℝ) : ℝ := 4 / 3 * (Real.cos s / Real.sin s) - 1

/-- The radius at which the inflow angle is `s`. -/
noncomputable def reRadius (s : ℝ) : ℝ := 3 * Real.cos s / (8 * Real.pi * Real.sin s ^ 2 * reK s)

/-- The solution curve. -/
noncomputable def reCurve (s : ℝ) : SecIn := ⟨s, 1, 0, 4, 3, reRadius s, 1, 100, 0⟩

/-- Its velocity at 45 degrees. -/
noncomputable def reVel : SecIn := ⟨1, 0, 0, 0, 0, deriv reRadius (Real.pi / 4), 0, 0, 0⟩

/-- Angles for which the momentum branch is used. -/
structure ReOk (s : ℝ) : Prop where
  pos : 0 < s
  sin : 0 < Real.sin s
  cos : 0 < Real.cos s
  k0 : 0 < reK s
  k1 : reK s < 2 / 3

theorem reCurve_Re0 (s : ℝ) : (reCurve s).Re0 reRotor = 5 := by
  simp only [SecIn.Re0, reCurve, reRotor]
  rw [show (4 : ℝ) ^ 2 + 3 ^ 2 = 5 ^ 2 by norm_num, Real.sqrt_sq (by norm_num)]
  norm_num

section
variable {m s : ℝ}

theorem reCurve_ind : (reCurve s).ind reRotor (reAirfoil m) = ⟨reRadius s, 1, 1, 100, s, 1, 0, 4, 3⟩ := by
  simp only [SecIn.ind, reCurve_Re0]
  simp [reCurve, reAirfoil]

theorem ReOk.kSpec (h : ReOk s) : kSpec ⟨false, false, false, false⟩ 3 (reRadius s) 1 1 100 s 1 0 = reK s := by
  have := h.sin.ne'
  have := h.cos.ne'
  have := h.k0.ne'
  have := Real.pi_ne_zero
  simp [Verif.kSpec, lossSpec, cnSpec, reRadius]
  field_simp
  norm_num

theorem ReOk.radius_pos (h : ReOk s) : 0 < reRadius s := by
  have := h.sin
  have := h.cos
  have := h.k0
  have := Real.pi_pos
  unfold reRadius
  positivity

theorem ReOk.eval (h : ReOk s) : let o := ((reCurve s).ind reRotor (reAirfoil m)).eval 3 ⟨false, false, false, false⟩
    o.a = reK s / (1 + reK s) ∧ o.ap = 0 ∧ o.fzero = 0 := by
  obtain ⟨h1, h2, h3⟩ := indOut_eq (reRadius s) 1 1 100 s 1 0 3 4 3 ⟨false, false, false, false⟩
  rw [h.kSpec, axial_momentum h.pos h.k1.le] at h1 h3
  simp only [reCurve_ind, IndIn.eval]
  refine ⟨h1, by simpa using h2, h3.trans ?_⟩
  have := h.sin.ne'
  have := h.cos.ne'
  simp only [bemResidual, h.pos, if_true, Bool.false_eq_true, if_false]
  have hk : 1 - reK s / (1 + reK s) = 3 / 4 * (Real.sin s / Real.cos s) := by
    have : 1 + reK s ≠ 0 := by have := h.k0; linarith
    have e : 1 + reK s = 4 / 3 * (Real.cos s / Real.sin s) := by simp [reK]
    have e2 : 1 - reK s / (1 + reK s) = 1 / (1 + reK s) := by field_simp; ring
    rw [e2, e]
    field_simp
  rw [hk]
  field_simp
  ring

theorem ReOk.one_sub (h : ReOk s) : 1 - reK s / (1 + reK s) = 3 / 4 * (Real.sin s / Real.cos s) := by
  have := h.sin.ne'
  have := h.cos.ne'
  have : 1 + reK s ≠ 0 := by have := h.k0; linarith
  have e : 1 + reK s = 4 / 3 * (Real.cos s / Real.sin s) := by simp [reK]
  have e2 : 1 - reK s / (1 + reK s) = 1 / (1 + reK s) := by field_simp; ring
  rw [e2, e]
  field_simp

theorem ReOk.loads_a (h : ReOk s) : ((reCurve s).loads reRotor (reAirfoil m)).a = reK s / (1 + reK s) ∧
    ((reCurve s).loads reRotor (reAirfoil m)).ap = 0 := by
  simp only [SecIn.loads, secValues, SecIn.runBEM_eq reRotor rfl, if_true]
  exact ⟨h.eval.1, h.eval.2.1⟩

theorem ReOk.a_range (h : ReOk s) : 0 < reK s / (1 + reK s) ∧ reK s / (1 + reK s) < 1 := by
  have h0 := h.k0
  refine ⟨by positivity, ?_⟩
  rw [div_lt_one (by linarith)]
  linarith

theorem ReOk.loads_W (h : ReOk s) : ((reCurve s).loads reRotor (reAirfoil m)).W = 3 / Real.cos s := by
  have h0 := h.cos
  rw [(SecIn.loads_eq reRotor rfl (reAirfoil m) (reCurve s)).2.2.1]
  simp only [SecIn.rel, RelIn.eval, relativeWind, relSpeed, (h.loads_a (m := m)).1, (h.loads_a (m := m)).2, num_real]
  have h1 : |reK s / (1 + reK s)| < 10 := by
    rw [abs_of_pos h.a_range.1]; have := h.a_range.2; linarith
  rw [if_neg (by push_cast; exact not_lt.mpr h1.le), if_neg (by simp), h.one_sub]
  have e : ((reCurve s).Vx * (3 / 4 * (Real.sin s / Real.cos s))) ^ 2 + ((reCurve s).Vy * (1 + 0)) ^ 2
      = (3 / Real.cos s) ^ 2 := by
    simp only [reCurve]
    have := Real.sin_sq_add_cos_sq s
    field_simp
    linear_combination this
  rw [e, Real.sqrt_sq (by positivity)]

theorem ReOk.loads_Re (h : ReOk s) : ((reCurve s).loads reRotor (reAirfoil m)).Re = 3 / Real.cos s := by
  have e := h.loads_W (m := m)
  rw [(SecIn.loads_eq reRotor rfl (reAirfoil m) (reCurve s)).2.2.1] at e
  rw [(SecIn.loads_eq reRotor rfl (reAirfoil m) (reCurve s)).2.2.2.1]
  simp only [SecIn.rel, RelIn.eval, relativeWind] at e ⊢
  rw [e]
  simp [reRotor, reCurve]

theorem ReOk.regular (h : ReOk s) : LoadRegular reRotor (reAirfoil m) (reCurve s) := by
  have hs := h.sin.ne'
  have hc := h.cos
  obtain ⟨e1, e2, -, -, -, e6, e7, -⟩ := SecIn.loads_eq reRotor rfl (reAirfoil m) (reCurve s)
  have c1 : ((reCurve s).loads reRotor (reAirfoil m)).cl = 1 := by
    rw [e1, reCurve_Re0]; simp [reAirfoil]
  have c2 : ((reCurve s).loads reRotor (reAirfoil m)).cd = 0 := by
    rw [e2]; simp [reAirfoil]
  refine ⟨⟨by simp [reCurve], ?_, reAirfoil_diff _ _ _⟩, ?_, ?_, ?_, ?_⟩
  · rw [reCurve_ind]
    refine ⟨h.radius_pos.ne', hs, hc.ne', by simp [reRotor], by simp [reRotor], Or.inl ⟨h.pos, ?_, ?_⟩, by simp [reRotor],
      by norm_num, by norm_num⟩
    · exact h.kSpec.trans_lt h.k1
    · have := h.kSpec
      have h0 := h.k0
      intro h1
      have : reK s = -1 := this.symm.trans h1
      linarith
  · right; right
    simp only [SecIn.rel, (h.loads_a (m := m)).1, (h.loads_a (m := m)).2]
    refine ⟨?_, by simp, Or.inr (by simp [reCurve])⟩
    rw [abs_of_pos h.a_range.1]; have := h.a_range.2; linarith
  · rw [h.loads_W]; positivity
  · rw [e6, c1, c2]
    simpa [reCurve] using hc.ne'
  · rw [e7, c1, c2]
    simpa [reCurve] using hs

theorem reOk : ReOk (Real.pi / 4) := by
  have h2 : 0 < Real.sqrt 2 := by positivity
  have hk : reK (Real.pi / 4) = 1 / 3 := by
    simp only [reK, Real.sin_pi_div_four, Real.cos_pi_div_four]
    field_simp
    norm_num
  refine ⟨by positivity, by rw [Real.sin_pi_div_four]; positivity, by rw [Real.cos_pi_div_four]; positivity, ?_, ?_⟩ <;>
    rw [hk] <;> norm_num

theorem reK_cont : ContinuousAt reK (Real.pi / 4) := by
  have : Real.sin (Real.pi / 4) ≠ 0 := reOk.sin.ne'
  unfold reK
  fun_prop (disch := assumption)

theorem reOk_near : ∀ᶠ s in 𝓝 (Real.pi / 4), ReOk s := by
  filter_upwards [lt_mem_nhds reOk.pos, Real.continuous_sin.continuousAt.eventually (lt_mem_nhds reOk.sin),
    Real.continuous_cos.continuousAt.eventually (lt_mem_nhds reOk.cos), reK_cont.eventually (lt_mem_nhds reOk.k0),
    reK_cont.eventually (gt_mem_nhds reOk.k1)] with s h1 h2 h3 h4 h5
  exact ⟨h1, h2, h3, h4, h5⟩

theorem reCurve_deriv : SecIn.HasDeriv reCurve reVel (Real.pi / 4) := by
  have hs := reOk.sin.ne'
  have hk := reOk.k0.ne'
  have hpi := Real.pi_ne_zero
  have hdk : DifferentiableAt ℝ reK (Real.pi / 4) := by
    unfold reK
    exact (((Real.differentiableAt_cos).div Real.differentiableAt_sin hs).const_mul _).sub_const _
  have hr : DifferentiableAt ℝ reRadius (Real.pi / 4) := by
    unfold reRadius
    refine ((Real.differentiableAt_cos).const_mul _).div (((Real.differentiableAt_sin.pow 2).const_mul _).mul hdk) ?_
    positivity
  exact ⟨hasDerivAt_id _, hasDerivAt_const _ _, hasDerivAt_const _ _, hasDerivAt_const _ _, hasDerivAt_const _ _,
    hr.hasDerivAt, hasDerivAt_const _ _, hasDerivAt_const _ _, hasDerivAt_const _ _⟩

theorem reCurve_root : ∀ᶠ s in 𝓝 (Real.pi / 4), (reCurve s).residual reRotor (reAirfoil m) = 0 :=
  reOk_near.mono fun s h => by rw [SecIn.residual_eq reRotor rfl]; exact h.eval.2.2

theorem reCurve_dR0 : (((reCurve (Real.pi / 4)).derivs reRotor (reAirfoil m)).dR 0) ≠ 0 := by
  -- vary the inflow angle only
  set t := Real.pi / 4 with ht
  have hs := reOk.sin
  have hc := reOk.cos
  have hY : SecIn.HasDeriv (fun s => { reCurve t with phi := s }) ⟨1, 0, 0, 0, 0, 0, 0, 0, 0⟩ t :=
    ⟨hasDerivAt_id _, hasDerivAt_const _ _, hasDerivAt_const _ _, hasDerivAt_const _ _, hasDerivAt_const _ _,
      hasDerivAt_const _ _, hasDerivAt_const _ _, hasDerivAt_const _ _, hasDerivAt_const _ _⟩
  obtain ⟨h1, -, -⟩ := residualDerivatives_correct reRotor rfl (reAirfoil m) _ _ t hY (reOk.regular (m := m)).toSecRegular
  have h2 : Real.sqrt 2 ^ 2 = 2 := Real.sq_sqrt (by norm_num)
  have h2p : 0 < Real.sqrt 2 := by positivity
  have st : Real.sin t = Real.sqrt 2 / 2 := Real.sin_pi_div_four
  have ct : Real.cos t = Real.sqrt 2 / 2 := Real.cos_pi_div_four
  have hk3 : reK t = 1 / 3 := by
    simp only [reK, st, ct]
    field_simp
    norm_num
  have hkap : ∀ s, kSpec ⟨false, false, false, false⟩ 3 (reRadius t) 1 1 100 s 1 0
      = Real.sqrt 2 / 6 * (Real.cos s / Real.sin s ^ 2) := by
    intro s
    have hpi := Real.pi_ne_zero
    have e : reRadius t = 9 * Real.sqrt 2 / (8 * Real.pi) := by
      simp only [reRadius, hk3, st, ct]
      field_simp
      nlinarith
    simp only [kSpec, lossSpec, cnSpec, e, Bool.false_eq_true, if_false]
    simp only [div_eq_mul_inv, mul_inv, inv_inv]
    have h3 : (Real.sqrt 2)⁻¹ = Real.sqrt 2 / 2 := by field_simp; linarith
    rw [h3]
    field_simp
    norm_num
    ring
  have hnear : ∀ᶠ s in 𝓝 t, SecIn.residual reRotor (reAirfoil m) { reCurve t with phi := s }
      = Real.sin s + Real.sqrt 2 / 6 * (Real.cos s / Real.sin s) - 4 / 3 * Real.cos s := by
    have hcont : ContinuousAt (fun s => Real.sqrt 2 / 6 * (Real.cos s / Real.sin s ^ 2)) t := by
      have : Real.sin t ^ 2 ≠ 0 := by positivity
      fun_prop (disch := assumption)
    have hk13 : Real.sqrt 2 / 6 * (Real.cos t / Real.sin t ^ 2) = 1 / 3 := by
      rw [st, ct]; field_simp; nlinarith
    have hlt : ∀ᶠ s in 𝓝 t, Real.sqrt 2 / 6 * (Real.cos s / Real.sin s ^ 2) < 2 / 3 :=
      hcont.eventually (gt_mem_nhds (by simp only [hk13]; norm_num))
    have hgt : ∀ᶠ s in 𝓝 t, 0 < Real.sqrt 2 / 6 * (Real.cos s / Real.sin s ^ 2) :=
      hcont.eventually (lt_mem_nhds (by simp only [hk13]; norm_num))
    filter_upwards [reOk_near, hlt, hgt] with s h hk hk0
    rw [SecIn.residual_eq reRotor rfl]
    have hi : SecIn.ind reRotor (reAirfoil m) { reCurve t with phi := s } = ⟨reRadius t, 1, 1, 100, s, 1, 0, 4, 3⟩ := by
      have e : SecIn.Re0 reRotor { reCurve t with phi := s } = 5 := reCurve_Re0 t
      simp only [SecIn.ind, e]
      simp [reCurve, reAirfoil]
    rw [hi]
    obtain ⟨-, -, h3⟩ := indOut_eq (reRadius t) 1 1 100 s 1 0 3 4 3 ⟨false, false, false, false⟩
    rw [hkap, axial_momentum h.pos hk.le] at h3
    simp only [IndIn.eval]
    refine h3.trans ?_
    simp only [bemResidual, h.pos, if_true, Bool.false_eq_true, if_false]
    have e2 : ∀ k : ℝ, 0 < k → Real.sin s / (1 - k / (1 + k)) = Real.sin s * (1 + k) := by
      intro k hk
      have : 1 - k / (1 + k) = 1 / (1 + k) := by field_simp; ring
      rw [this]
      field_simp
    rw [e2 _ hk0]
    have := h.sin.ne'
    field_simp
    ring
  have hder : HasDerivAt (fun s => Real.sin s + Real.sqrt 2 / 6 * (Real.cos s / Real.sin s) - 4 / 3 * Real.cos s)
      (Real.cos t + Real.sqrt 2 / 6 * ((-Real.sin t * Real.sin t - Real.cos t * Real.cos t) / Real.sin t ^ 2)
        - 4 / 3 * -Real.sin t) t :=
    ((Real.hasDerivAt_sin t).add (((Real.hasDerivAt_cos t).div (Real.hasDerivAt_sin t) hs.ne').const_mul _)).sub
      ((Real.hasDerivAt_cos t).const_mul _)
  have hu := h1.unique (hder.congr_of_eventuallyEq hnear)
  have hval : (Real.cos t + Real.sqrt 2 / 6 * ((-Real.sin t * Real.sin t - Real.cos t * Real.cos t) / Real.sin t ^ 2)
        - 4 / 3 * -Real.sin t) = 5 * Real.sqrt 2 / 6 := by
    rw [st, ct]
    field_simp
    ring
  rw [hval] at hu
  simp only [Finset.sum_range_succ, Finset.sum_range_zero, SecIn.get, zero_mul, add_zero, zero_add, one_mul] at hu
  intro h0
  have : 5 * Real.sqrt 2 / 6 = 0 := by rw [← hu]; exact h0
  linarith

end

/-- The hypotheses of `loads_total_derivative` are met by a section with a Reynolds-independent airfoil. -/
example : HasDerivAt (fun s => ((reCurve s).loads reRotor (reAirfoil 0)).Np)
    (∑ j ∈ Finset.range 8, reVel.get (j + 1) * (((reCurve (Real.pi / 4)).derivs reRotor (reAirfoil 0)).dNp (j + 1)
      - ((reCurve (Real.pi / 4)).derivs reRotor (reAirfoil 0)).dNp 0
        / ((reCurve (Real.pi / 4)).derivs reRotor (reAirfoil 0)).dR 0
        * ((reCurve (Real.pi / 4)).derivs reRotor (reAirfoil 0)).dR (j + 1))) (Real.pi / 4) :=
  (loads_total_derivative reRotor rfl (reAirfoil 0) (fun _ _ _ => by simp [reAirfoil]) reCurve reVel _ reCurve_deriv
    reOk.regular (reAirfoil_diff _ _ _) reCurve_root reCurve_dR0).1

/-- The hypotheses of `inflow_angle_derivative` are met: the inflow angle of this curve has the velocity it was given. -/
example : -((∑ j ∈ Finset.range 8, reVel.get (j + 1) * ((reCurve (Real.pi / 4)).derivs reRotor (reAirfoil 0)).dR (j + 1))
    / ((reCurve (Real.pi / 4)).derivs reRotor (reAirfoil 0)).dR 0) = reVel.phi := by
  have hX : SecIn.HasDeriv (fun s => (reCurve s).withPhi (reCurve (Real.pi / 4)).phi) { reVel with phi := 0 } (Real.pi / 4) :=
    ⟨hasDerivAt_const _ _, reCurve_deriv.chord, reCurve_deriv.theta, reCurve_deriv.Vx, reCurve_deriv.Vy, reCurve_deriv.r,
      reCurve_deriv.Rhub, reCurve_deriv.Rtip, reCurve_deriv.pitch⟩
  exact (inflow_angle_derivative reRotor rfl (reAirfoil 0) reCurve _ _ hX reCurve_deriv.phi.continuousAt
    reOk.regular.toSecRegular reCurve_root reCurve_dR0).unique reCurve_deriv.phi

/-- The hypotheses of `residualDerivatives_correct` are met by the same section with a lift depending on the Reynolds number. -/
example : HasDerivAt (fun s => ((reCurve s).loads reRotor (reAirfoil 1)).a) (∑ j ∈ Finset.range 9, reVel.get j *
    (residualDerivatives ((reCurve (Real.pi / 4)).rotor reRotor) (reCurve (Real.pi / 4)).pitch (reCurve (Real.pi / 4)).phi
      ((reCurve (Real.pi / 4)).sec (reAirfoil 1)) j).ad) (Real.pi / 4) :=
  (residualDerivatives_correct reRotor rfl (reAirfoil 1) reCurve reVel _ reCurve_deriv reOk.regular.toSecRegular).2.1

/-- The hypotheses of `loads_total_derivative_continuous` are met. -/
example : let D := (reCurve (Real.pi / 4)).derivs reRotor (reAirfoil 0)
    HasDerivAt (fun s => ((reCurve s).loads reRotor (reAirfoil 0)).Tp) (∑ j ∈ Finset.range 8, ({ reVel with phi := 0 } : SecIn).get (j + 1) *
      (D.dTp (j + 1) - D.dTp 0 / D.dR 0 * D.dR (j + 1))) (Real.pi / 4) := by
  have hX : SecIn.HasDeriv (fun s => (reCurve s).withPhi (reCurve (Real.pi / 4)).phi) { reVel with phi := 0 } (Real.pi / 4) :=
    ⟨hasDerivAt_const _ _, reCurve_deriv.chord, reCurve_deriv.theta, reCurve_deriv.Vx, reCurve_deriv.Vy, reCurve_deriv.r,
      reCurve_deriv.Rhub, reCurve_deriv.Rtip, reCurve_deriv.pitch⟩
  exact (loads_total_derivative_continuous reRotor rfl (reAirfoil 0) (fun _ _ _ => by simp [reAirfoil]) reCurve _ _ hX
    reCurve_deriv.phi.continuousAt reOk.regular (reAirfoil_diff _ _ _) reCurve_root reCurve_dR0).2

/-- Lift and drag coefficient that depend on angle of attack and Reynolds number. -/
noncomputable def parkAirfoil : AirfoilI ℝ where
  evaluate a Re := (1 + Re, 1 + a)
  dclda _ _ := 0
  dcldRe _ _ := 1
  dcdda _ _ := 1
  dcddRe _ _ := 0

/-- The hypotheses of `parked_total_derivative` are met by a parked section in a rising wind. -/
example : let X : ℝ → SecIn := fun s => ⟨Real.pi / 2, 1, 0, s, 3, 10, 1, 100, 0⟩
    let d : SecIn := ⟨0, 0, 0, 1, 0, 0, 0, 0, 0⟩
    let D := (X 4).parkedDerivs reRotor parkAirfoil
    0 < ((X 4).parkedLoads reRotor parkAirfoil).Np ∧
    HasDerivAt (fun s => ((X s).parkedLoads reRotor parkAirfoil).Np)
      (∑ j ∈ Finset.range 8, d.get (j + 1) * (D.dNp (j + 1) - D.dNp 0 / D.dR 0 * D.dR (j + 1))) 4 := by
  intro X d D
  have hRe : (X 4).Re0 reRotor = 5 := by
    simp only [SecIn.Re0, reRotor, X]
    rw [show (4 : ℝ) ^ 2 + 3 ^ 2 = 5 ^ 2 by norm_num, Real.sqrt_sq (by norm_num)]
    norm_num
  have hpi := Real.pi_pos
  have ha : (X 4).alpha = Real.pi / 2 := by simp [SecIn.alpha, X]
  have hphi : (X 4).phi = Real.pi / 2 := rfl
  have hc : parkAirfoil.evaluate (Real.pi / 2) 5 = (6, 1 + Real.pi / 2) := by
    simp only [parkAirfoil]
    norm_num
  refine ⟨?_, (parked_total_derivative reRotor parkAirfoil X d 4 ⟨hasDerivAt_const _ _, hasDerivAt_const _ _, hasDerivAt_const _ _,
    hasDerivAt_id _, hasDerivAt_const _ _, hasDerivAt_const _ _, hasDerivAt_const _ _, hasDerivAt_const _ _, hasDerivAt_const _ _⟩
    (fun _ => rfl) (by simp [X]) (by simp [X]) ⟨?_, ?_⟩ ?_ ?_).1⟩
  · simp only [SecIn.parkedLoads_eq, hRe, ha, hphi, hc, Real.cos_pi_div_two, Real.sin_pi_div_two, mul_zero, mul_one, zero_add]
    simp only [reRotor, X]
    positivity
  · have h : HasFDerivAt (fun p : ℝ × ℝ => p.2) (ContinuousLinearMap.snd ℝ ℝ ℝ) ((X 4).alpha, (X 4).Re0 reRotor) := hasFDerivAt_snd
    simpa [parkAirfoil] using h.const_add 1
  · have h : HasFDerivAt (fun p : ℝ × ℝ => p.1) (ContinuousLinearMap.fst ℝ ℝ ℝ) ((X 4).alpha, (X 4).Re0 reRotor) := hasFDerivAt_fst
    simpa [parkAirfoil] using h.const_add 1
  · simp only [SecIn.parkedLoads_eq, hRe, ha, hphi, hc, Real.cos_pi_div_two, Real.sin_pi_div_two]
    have : (0 : ℝ) < 1 + Real.pi / 2 := by positivity
    simpa using this.ne'
  · simp only [SecIn.parkedLoads_eq, hRe, ha, hphi, hc, Real.cos_pi_div_two, Real.sin_pi_div_two]
    norm_num

/-- **C40** fails: a section meeting every hypothesis of `loads_total_derivative` but with lift depending on the Reynolds
number, along whose solution curve the normal load changes by other than the reported derivatives say. -/
theorem loads_total_derivative_Re_false :
    ∃ (R : Rotor ℝ) (af : AirfoilI ℝ) (X : ℝ → SecIn) (d : SecIn) (t : ℝ),
      R.iterRe = 1 ∧ SecIn.HasDeriv X d t ∧ LoadRegular R af (X t) ∧ (∀ alpha Re, af.DiffAt alpha Re) ∧
      (∀ᶠ s in 𝓝 t, (X s).residual R af = 0) ∧ ((X t).derivs R af).dR 0 ≠ 0 ∧
      let D := (X t).derivs R af
      ¬ HasDerivAt (fun s => ((X s).loads R af).Np)
        (∑ j ∈ Finset.range 8, d.get (j + 1) * (D.dNp (j + 1) - D.dNp 0 / D.dR 0 * D.dR (j + 1))) t := by
  refine ⟨reRotor, reAirfoil 1, reCurve, reVel, Real.pi / 4, rfl, reCurve_deriv, reOk.regular, reAirfoil_diff 1,
    reCurve_root, reCurve_dR0, ?_⟩
  intro D hN
  have hs := residual_sum reRotor rfl (reAirfoil 1) reCurve reVel _ reCurve_deriv (reOk.regular (m := 1)).toSecRegular
    reCurve_root
  rw [implicit_sum _ _ reVel reCurve_dR0 hs] at hN
  obtain ⟨a', r0', r', -, hr0, hr, hg⟩ := secDerivs_gap reRotor rfl (reAirfoil 1) reCurve reVel _ reCurve_deriv reOk.regular
  have e0 : r0' = 0 := by
    simp only [reCurve_Re0] at hr0
    exact hr0.unique (hasDerivAt_const _ _)
  have h2 : Real.sqrt 2 ^ 2 = 2 := Real.sq_sqrt (by norm_num)
  have h2p : 0 < Real.sqrt 2 := by positivity
  have e1 : r' = 3 * Real.sqrt 2 := by
    have h1 : HasDerivAt (fun s => 3 / Real.cos s) (3 * Real.sqrt 2) (Real.pi / 4) := by
      refine ((hasDerivAt_const _ (3 : ℝ)).div (Real.hasDerivAt_cos _) reOk.cos.ne').congr_deriv ?_
      rw [Real.sin_pi_div_four, Real.cos_pi_div_four]
      field_simp
      nlinarith
    exact hr.unique (h1.congr_of_eventuallyEq (reOk_near.mono fun s h => h.loads_Re))
  obtain ⟨g1, -⟩ := hg _ _ rfl rfl
  have hu := hN.unique g1
  obtain ⟨-, -, -, -, -, -, -, hq, -⟩ := SecIn.loads_eq reRotor rfl (reAirfoil 1) (reCurve (Real.pi / 4))
  rw [reOk.loads_W] at hq
  rw [hq, e0, e1] at hu
  have k1 : ∀ a b, (reAirfoil 1).dclda a b = 0 := fun _ _ => rfl
  have k2 : ∀ a b, (reAirfoil 1).dcldRe a b = 1 := fun _ _ => rfl
  have k3 : ∀ a b, (reAirfoil 1).dcdda a b = 0 := fun _ _ => rfl
  have k4 : ∀ a b, (reAirfoil 1).dcddRe a b = 0 := fun _ _ => rfl
  simp only [k1, k2, k3, k4, zero_mul, zero_add, mul_zero, one_mul, sub_self, add_zero, zero_sub] at hu
  have hphi : (reCurve (Real.pi / 4)).phi = Real.pi / 4 := rfl
  have hch : (reCurve (Real.pi / 4)).chord = 1 := rfl
  have hrho : reRotor.rho = 1 := rfl
  rw [hphi, hch, hrho, Real.cos_pi_div_four] at hu
  have hne : (1 / 2 * 1 * (3 / (Real.sqrt 2 / 2)) ^ 2 * 1 * (-(3 * Real.sqrt 2) * (Real.sqrt 2 / 2))) = -27 := by
    field_simp
    nlinarith
  rw [hne] at hu
  linarith

end Verif
