import Verif.Lemmas.Implicit
import Verif.Props.SecDeriv

/-!
# Total derivatives of the loads of a section (C39, C40)
-/

namespace Verif

open Filter Topology

/-- The coefficients do not depend on the Reynolds number. -/
def AirfoilI.ReIndependent {α : Type} (af : AirfoilI α) : Prop := ∀ alpha Re Re', af.evaluate alpha Re = af.evaluate alpha Re'

theorem AirfoilI.ReIndependent.derivs {af : AirfoilI ℝ} (h : af.ReIndependent) {alpha Re Re' : ℝ}
    (h1 : af.DiffAt alpha Re) (h2 : af.DiffAt alpha Re') :
    af.dcldRe alpha Re = 0 ∧ af.dcddRe alpha Re = 0 ∧
    af.dclda alpha Re' = af.dclda alpha Re ∧ af.dcdda alpha Re' = af.dcdda alpha Re := by
  have e : ∀ (E : ℝ → ℝ) (A : ℝ → ℝ), (fun s => af.evaluate (A s) (E s)) = fun s => af.evaluate (A s) 0 :=
    fun E A => funext fun s => h _ _ _
  have g1 := AirfoilI.DiffAt.curve (A := fun _ => alpha) (E := fun s => s) (t := Re) h1 (hasDerivAt_const _ _)
    (hasDerivAt_id _)
  have g2 := AirfoilI.DiffAt.curve (A := fun s => s) (E := fun _ => Re) (t := alpha) h1 (hasDerivAt_id _)
    (hasDerivAt_const _ _)
  have g3 := AirfoilI.DiffAt.curve (A := fun s => s) (E := fun _ => Re') (t := alpha) h2 (hasDerivAt_id _)
    (hasDerivAt_const _ _)
  have c1 : (fun s => (af.evaluate alpha s).1) = fun _ => (af.evaluate alpha 0).1 := by
    funext s; rw [h alpha s 0]
  have c2 : (fun s => (af.evaluate alpha s).2) = fun _ => (af.evaluate alpha 0).2 := by
    funext s; rw [h alpha s 0]
  have c3 : (fun s => (af.evaluate s Re').1) = fun s => (af.evaluate s Re).1 := by
    funext s; rw [h s Re' Re]
  have c4 : (fun s => (af.evaluate s Re').2) = fun s => (af.evaluate s Re).2 := by
    funext s; rw [h s Re' Re]
  rw [c1, c2] at g1
  rw [c3, c4] at g3
  have u1 := g1.1.unique (hasDerivAt_const _ _)
  have u2 := g1.2.unique (hasDerivAt_const _ _)
  have u3 := g3.1.unique g2.1
  have u4 := g3.2.unique g2.2
  simp only [mul_zero, mul_one, zero_add, add_zero] at u1 u2 u3 u4
  exact ⟨u1, u2, u3, u4⟩

/-- The total derivatives `DNp_Dx`, `DTp_Dx` the code forms from the partial ones (ccblade.py ll. 1047-1048). -/
theorem implicit_sum (N D : ℕ → ℝ) (d : SecIn) (h0 : D 0 ≠ 0) (h : ∑ j ∈ Finset.range 9, d.get j * D j = 0) :
    ∑ j ∈ Finset.range 8, d.get (j + 1) * (N (j + 1) - N 0 / D 0 * D (j + 1)) = ∑ j ∈ Finset.range 9, d.get j * N j := by
  have e : N 0 / D 0 * (∑ j ∈ Finset.range 9, d.get j * D j) = 0 := by rw [h, mul_zero]
  simp only [Finset.sum_range_succ, Finset.sum_range_zero] at e ⊢
  have : N 0 = N 0 / D 0 * D 0 := by field_simp
  generalize N 0 / D 0 = z at *
  rw [this]
  linear_combination -e

theorem residual_sum (R : Rotor ℝ) (hR : R.iterRe = 1) (af : AirfoilI ℝ) (X : ℝ → SecIn) (d : SecIn) (t : ℝ)
    (hX : SecIn.HasDeriv X d t) (h : SecRegular R af (X t)) (hroot : ∀ᶠ s in 𝓝 t, (X s).residual R af = 0) :
    ∑ j ∈ Finset.range 9, d.get j * ((X t).derivs R af).dR j = 0 := by
  obtain ⟨h1, -, -⟩ := residualDerivatives_correct R hR af X d t hX h
  have h2 : HasDerivAt (fun s => (X s).residual R af) 0 t :=
    (hasDerivAt_const t (0 : ℝ)).congr_of_eventuallyEq (hroot.mono fun s hs => hs)
  exact h1.unique h2

/-- The inputs `x` at the inflow angle `phi`. -/
def SecIn.withPhi (x : SecIn) (phi : ℝ) : SecIn := { x with phi := phi }

/-- **C39** The inflow angle follows the design smoothly: when the other inputs of a section are differentiable and the
residual stays zero, an inflow angle that merely varies continuously is differentiable, with the derivative of the implicit
function: minus the reported derivatives of the residual times the velocities of the inputs over the derivative with respect
to the inflow angle. -/
theorem inflow_angle_derivative (R : Rotor ℝ) (hR : R.iterRe = 1) (af : AirfoilI ℝ) (X : ℝ → SecIn) (d : SecIn) (t : ℝ)
    (hX : SecIn.HasDeriv (fun s => (X s).withPhi (X t).phi) d t) (hphi : ContinuousAt (fun s => (X s).phi) t)
    (h : SecRegular R af (X t)) (hroot : ∀ᶠ s in 𝓝 t, (X s).residual R af = 0) (h0 : ((X t).derivs R af).dR 0 ≠ 0) :
    HasDerivAt (fun s => (X s).phi)
      (-((∑ j ∈ Finset.range 8, d.get (j + 1) * ((X t).derivs R af).dR (j + 1)) / ((X t).derivs R af).dR 0)) t := by
  have hself : (X t).withPhi (X t).phi = X t := rfl
  refine implicit_deriv (G := fun phi s => ((X s).withPhi phi).residual R af) hphi ?_ hroot h0
  intro A T a b hA0 hT0 hA hT
  have comp : ∀ {f : ℝ → ℝ} {f' : ℝ}, HasDerivAt f f' t → HasDerivAt (fun s => f (T s)) (b * f') 0 := by
    intro f f' hf
    rw [← hT0] at hf
    exact (HasDerivAt.comp (0 : ℝ) hf hT).congr_deriv (mul_comm _ _)
  have hY : SecIn.HasDeriv (fun s => (X (T s)).withPhi (A s))
      ⟨a, b * d.chord, b * d.theta, b * d.Vx, b * d.Vy, b * d.r, b * d.Rhub, b * d.Rtip, b * d.pitch⟩ 0 :=
    ⟨hA, comp hX.chord, comp hX.theta, comp hX.Vx, comp hX.Vy, comp hX.r, comp hX.Rhub, comp hX.Rtip, comp hX.pitch⟩
  have e0 : (X (T 0)).withPhi (A 0) = X t := by rw [hA0, hT0]; exact hself
  obtain ⟨h1, -, -⟩ := residualDerivatives_correct R hR af _ _ 0 hY (by rw [e0]; exact h)
  rw [e0] at h1
  refine h1.congr_deriv ?_
  show ∑ j ∈ Finset.range 9, _ * ((X t).derivs R af).dR j = _
  generalize ((X t).derivs R af).dR = D
  simp only [Finset.sum_range_succ, Finset.sum_range_zero, SecIn.get]
  ring

/-- **C39** The derivatives of the loads are exact total derivatives: when the inputs of a section of a turning rotor vary
and the inflow angle varies such that the residual stays zero, the loads vary with the sum of the reported derivatives
times the velocities of the inputs (the inflow angle not among them). -/
theorem loads_total_derivative (R : Rotor ℝ) (hR : R.iterRe = 1) (af : AirfoilI ℝ) (hind : af.ReIndependent)
    (X : ℝ → SecIn) (d : SecIn) (t : ℝ) (hX : SecIn.HasDeriv X d t) (h : LoadRegular R af (X t))
    (hdiff : af.DiffAt (X t).alpha ((X t).loads R af).Re)
    (hroot : ∀ᶠ s in 𝓝 t, (X s).residual R af = 0) (h0 : ((X t).derivs R af).dR 0 ≠ 0) :
    let D := (X t).derivs R af
    HasDerivAt (fun s => ((X s).loads R af).Np)
      (∑ j ∈ Finset.range 8, d.get (j + 1) * (D.dNp (j + 1) - D.dNp 0 / D.dR 0 * D.dR (j + 1))) t ∧
    HasDerivAt (fun s => ((X s).loads R af).Tp)
      (∑ j ∈ Finset.range 8, d.get (j + 1) * (D.dTp (j + 1) - D.dTp 0 / D.dR 0 * D.dR (j + 1))) t := by
  intro D
  have hs := residual_sum R hR af X d t hX h.toSecRegular hroot
  rw [implicit_sum _ _ d h0 hs, implicit_sum _ _ d h0 hs]
  obtain ⟨a', r0', r', -, -, -, hg⟩ := secDerivs_gap R hR af X d t hX h
  obtain ⟨u1, u2, u3, u4⟩ := hind.derivs h.airfoil hdiff
  obtain ⟨w1, w2, -, -⟩ := hind.derivs hdiff h.airfoil
  obtain ⟨g1, g2⟩ := hg 0 0 (by rw [u1, u3, w1]; ring) (by rw [u2, u4, w2]; ring)
  simp only [zero_mul, add_zero, sub_zero, mul_zero] at g1 g2
  exact ⟨g1, g2⟩

/-- **C39** The same when the inflow angle is only known to vary continuously.  (Sections meeting the hypotheses of these
theorems are exhibited in `ReDeriv.lean`.) -/
theorem loads_total_derivative_continuous (R : Rotor ℝ) (hR : R.iterRe = 1) (af : AirfoilI ℝ) (hind : af.ReIndependent)
    (X : ℝ → SecIn) (d : SecIn) (t : ℝ) (hX : SecIn.HasDeriv (fun s => (X s).withPhi (X t).phi) d t)
    (hphi : ContinuousAt (fun s => (X s).phi) t) (h : LoadRegular R af (X t))
    (hdiff : af.DiffAt (X t).alpha ((X t).loads R af).Re)
    (hroot : ∀ᶠ s in 𝓝 t, (X s).residual R af = 0) (h0 : ((X t).derivs R af).dR 0 ≠ 0) :
    let D := (X t).derivs R af
    HasDerivAt (fun s => ((X s).loads R af).Np)
      (∑ j ∈ Finset.range 8, d.get (j + 1) * (D.dNp (j + 1) - D.dNp 0 / D.dR 0 * D.dR (j + 1))) t ∧
    HasDerivAt (fun s => ((X s).loads R af).Tp)
      (∑ j ∈ Finset.range 8, d.get (j + 1) * (D.dTp (j + 1) - D.dTp 0 / D.dR 0 * D.dR (j + 1))) t := by
  obtain ⟨p, hp⟩ : ∃ p, HasDerivAt (fun s => (X s).phi) p t :=
    ⟨_, inflow_angle_derivative R hR af X d t hX hphi h.toSecRegular hroot h0⟩
  have e : ∀ j, d.get (j + 1) = ({ d with phi := p } : SecIn).get (j + 1) := by
    rintro (_ | _ | _ | _ | _ | _ | _ | _ | j) <;> rfl
  simp only [e]
  exact loads_total_derivative R hR af hind X { d with phi := p } t
    ⟨hp, hX.chord, hX.theta, hX.Vx, hX.Vy, hX.r, hX.Rhub, hX.Rtip, hX.pitch⟩ h hdiff hroot h0

/-- **C40** For an airfoil depending on the Reynolds number the reported total derivatives of the loads of a turning rotor are
exact if and only if the total changes of lift and drag at the two Reynolds numbers (of the undisturbed flow, used for the
values, and of the disturbed flow, used for the derivatives) contribute equally to the load.  Exactness for all such
airfoils is missing; it is false (`loads_total_derivative_Re_false`). -/
theorem loads_total_derivative_Re_partial (R : Rotor ℝ) (hR : R.iterRe = 1) (af : AirfoilI ℝ) (X : ℝ → SecIn) (d : SecIn)
    (t : ℝ) (hX : SecIn.HasDeriv X d t) (h : LoadRegular R af (X t))
    (hroot : ∀ᶠ s in 𝓝 t, (X s).residual R af = 0) (h0 : ((X t).derivs R af).dR 0 ≠ 0) :
    let l := (X t).loads R af
    let D := (X t).derivs R af
    ∃ alpha' Re0' Re', HasDerivAt (fun s => (X s).alpha) alpha' t ∧ HasDerivAt (fun s => (X s).Re0 R) Re0' t ∧
      HasDerivAt (fun s => ((X s).loads R af).Re) Re' t ∧
      ∀ gcl gcd,
      gcl = (af.dclda (X t).alpha ((X t).Re0 R) * alpha' + af.dcldRe (X t).alpha ((X t).Re0 R) * Re0')
        - (af.dclda (X t).alpha l.Re * alpha' + af.dcldRe (X t).alpha l.Re * Re') →
      gcd = (af.dcdda (X t).alpha ((X t).Re0 R) * alpha' + af.dcddRe (X t).alpha ((X t).Re0 R) * Re0')
        - (af.dcdda (X t).alpha l.Re * alpha' + af.dcddRe (X t).alpha l.Re * Re') →
      (HasDerivAt (fun s => ((X s).loads R af).Np)
        (∑ j ∈ Finset.range 8, d.get (j + 1) * (D.dNp (j + 1) - D.dNp 0 / D.dR 0 * D.dR (j + 1))) t ↔
        l.q * (X t).chord * (gcl * Real.cos (X t).phi + gcd * Real.sin (X t).phi) = 0) ∧
      (HasDerivAt (fun s => ((X s).loads R af).Tp)
        (∑ j ∈ Finset.range 8, d.get (j + 1) * (D.dTp (j + 1) - D.dTp 0 / D.dR 0 * D.dR (j + 1))) t ↔
        l.q * (X t).chord * (gcl * Real.sin (X t).phi - gcd * Real.cos (X t).phi) = 0) := by
  intro l D
  have hs := residual_sum R hR af X d t hX h.toSecRegular hroot
  rw [implicit_sum _ _ d h0 hs, implicit_sum _ _ d h0 hs]
  obtain ⟨a', r0', r', k1, k2, k3, hg⟩ := secDerivs_gap R hR af X d t hX h
  refine ⟨a', r0', r', k1, k2, k3, fun gcl gcd e1 e2 => ?_⟩
  obtain ⟨g1, g2⟩ := hg gcl gcd e1 e2
  refine ⟨⟨fun hN => ?_, fun e => ?_⟩, ⟨fun hN => ?_, fun e => ?_⟩⟩
  · exact left_eq_add.mp (hN.unique g1)
  · exact g1.congr_deriv (by rw [e, add_zero])
  · exact left_eq_add.mp (hN.unique g2)
  · exact g2.congr_deriv (by rw [e, add_zero])

/-! ## A parked rotor -/

/-- The loads of the section of a rotor at standstill as a function of the inputs. -/
noncomputable def SecIn.parkedLoads (R : Rotor ℝ) (af : AirfoilI ℝ) (x : SecIn) : SecLoads ℝ :=
  secValues (x.rotor R) x.pitch x.phi false (x.sec af)

/-- The derivatives the code computes for it. -/
noncomputable def SecIn.parkedDerivs (R : Rotor ℝ) (af : AirfoilI ℝ) (x : SecIn) : SecDerivs ℝ :=
  secDerivs (x.rotor R) x.pitch x.phi false (x.sec af) (x.parkedLoads R af)

theorem SecIn.parkedLoads_eq (R : Rotor ℝ) (af : AirfoilI ℝ) (x : SecIn) :
    let c := af.evaluate x.alpha (x.Re0 R)
    x.parkedLoads R af = ⟨0, 0, (c.1 * Real.cos x.phi + c.2 * Real.sin x.phi) * (1 / 2 * R.rho * (x.Vx ^ 2 + x.Vy ^ 2)) * x.chord,
      (c.1 * Real.sin x.phi - c.2 * Real.cos x.phi) * (1 / 2 * R.rho * (x.Vx ^ 2 + x.Vy ^ 2)) * x.chord,
      x.alpha * (180 / Real.pi), c.1, c.2, c.1 * Real.cos x.phi + c.2 * Real.sin x.phi,
      c.1 * Real.sin x.phi - c.2 * Real.cos x.phi, 1 / 2 * R.rho * (x.Vx ^ 2 + x.Vy ^ 2),
      Real.sqrt (x.Vx ^ 2 + x.Vy ^ 2), x.Re0 R⟩ := by
  have h : (0 : ℝ) ≤ x.Vx ^ 2 + x.Vy ^ 2 := by positivity
  simp only [SecIn.parkedLoads, secValues, Bool.false_eq_true, if_false, SecIn.rotor, SecIn.sec, relativeWind,
    relSpeed_zero, SecIn.alpha, SecIn.Re0, sub_sub, num_real, Real.sq_sqrt h]
  push_cast
  rfl

/-- **C39** At standstill the inflow angle is fixed at 90 degrees, and the reported derivatives are exact for every
differentiable airfoil, whether or not it depends on the Reynolds number. -/
theorem parked_total_derivative (R : Rotor ℝ) (af : AirfoilI ℝ) (X : ℝ → SecIn) (d : SecIn) (t : ℝ)
    (hX : SecIn.HasDeriv X d t) (hphi : ∀ s, (X s).phi = Real.pi / 2) (hc : (X t).chord ≠ 0) (hV : (X t).Vx ≠ 0)
    (haf : af.DiffAt (X t).alpha ((X t).Re0 R)) (hcn : ((X t).parkedLoads R af).cn ≠ 0)
    (hct : ((X t).parkedLoads R af).ct ≠ 0) :
    let D := (X t).parkedDerivs R af
    HasDerivAt (fun s => ((X s).parkedLoads R af).Np)
      (∑ j ∈ Finset.range 8, d.get (j + 1) * (D.dNp (j + 1) - D.dNp 0 / D.dR 0 * D.dR (j + 1))) t ∧
    HasDerivAt (fun s => ((X s).parkedLoads R af).Tp)
      (∑ j ∈ Finset.range 8, d.get (j + 1) * (D.dTp (j + 1) - D.dTp 0 / D.dR 0 * D.dR (j + 1))) t := by
  intro D
  have hd0 : d.phi = 0 := by
    have h1 := hX.phi
    simp only [hphi] at h1
    exact h1.unique (hasDerivAt_const _ _)
  have ha := SecIn.alpha_deriv hX
  have hRe0 := SecIn.Re0_deriv (R := R) hX hc hV
  obtain ⟨hcl, hcd⟩ := haf.curve ha hRe0
  have hpos : 0 < (X t).Vx ^ 2 + (X t).Vy ^ 2 := by positivity
  have hW : Real.sqrt ((X t).Vx ^ 2 + (X t).Vy ^ 2) ≠ 0 := (Real.sqrt_pos.mpr hpos).ne'
  have hW2 : Real.sqrt ((X t).Vx ^ 2 + (X t).Vy ^ 2) ^ 2 = (X t).Vx ^ 2 + (X t).Vy ^ 2 := Real.sq_sqrt hpos.le
  have hq : HasDerivAt (fun s => 1 / 2 * R.rho * ((X s).Vx ^ 2 + (X s).Vy ^ 2)) _ t :=
    ((hX.Vx.pow 2).add (hX.Vy.pow 2)).const_mul _
  simp only [SecIn.parkedLoads_eq] at hcn hct ⊢
  have e0 : ∀ j, D.dR j = if j = 0 then 1 else 0 := fun j => rfl
  -- the kernel at `a = ap = 0`
  have hw : ∀ j, relativeWindDv (⟨(X t).phi, 0, 0, (X t).Vx, (X t).Vy, (X t).pitch, (X t).chord, (X t).theta⟩ : RelIn ℝ)
      ⟨kron 0 j, 0, 0, kron 3 j, kron 4 j, kron 8 j, kron 1 j, kron 2 j⟩ R.rho R.mu
      = ⟨(X t).alpha, kron 0 j - kron 2 j - kron 8 j, Real.sqrt ((X t).Vx ^ 2 + (X t).Vy ^ 2),
        ((X t).Vx * kron 3 j + (X t).Vy * kron 4 j) / Real.sqrt ((X t).Vx ^ 2 + (X t).Vy ^ 2), (X t).Re0 R,
        R.rho * ((X t).chord * (((X t).Vx * kron 3 j + (X t).Vy * kron 4 j) / Real.sqrt ((X t).Vx ^ 2 + (X t).Vy ^ 2))
          + Real.sqrt ((X t).Vx ^ 2 + (X t).Vy ^ 2) * kron 1 j) / R.mu⟩ := by
    intro j
    have h1 : relSpeedDv (⟨(X t).phi, 0, 0, (X t).Vx, (X t).Vy, (X t).pitch, (X t).chord, (X t).theta⟩ : RelIn ℝ)
        ⟨kron 0 j, 0, 0, kron 3 j, kron 4 j, kron 8 j, kron 1 j, kron 2 j⟩
        = (Real.sqrt ((X t).Vx ^ 2 + (X t).Vy ^ 2),
          ((X t).Vx * kron 3 j + (X t).Vy * kron 4 j) / Real.sqrt ((X t).Vx ^ 2 + (X t).Vy ^ 2)) := by
      simp only [relSpeedDv, num_real, le_refl, if_true]
      rw [if_neg (by push_cast; norm_num), if_neg (by push_cast; norm_num)]
      have e : ((X t).Vx * (1 - 0)) ^ 2 + ((X t).Vy * (1 + 0)) ^ 2 = (X t).Vx ^ 2 + (X t).Vy ^ 2 := by ring
      rw [e]
      simp only [hpos.ne', decide_false, Bool.false_eq_true, if_false]
      congr 1
      push_cast
      field_simp
      ring
    simp only [relativeWindDv, h1, SecIn.alpha, SecIn.Re0, sub_sub]
  have hD : ∀ j, D.dNp (j + 1) = ((X t).parkedLoads R af).Np * (1 / ((X t).parkedLoads R af).cn *
      ((af.dclda (X t).alpha ((X t).Re0 R) * (kron 0 (j + 1) - kron 2 (j + 1) - kron 8 (j + 1))
        + af.dcldRe (X t).alpha ((X t).Re0 R) * (R.rho * ((X t).chord * (((X t).Vx * kron 3 (j + 1) + (X t).Vy * kron 4 (j + 1))
            / Real.sqrt ((X t).Vx ^ 2 + (X t).Vy ^ 2))
          + Real.sqrt ((X t).Vx ^ 2 + (X t).Vy ^ 2) * kron 1 (j + 1)) / R.mu)) * Real.cos (X t).phi
        - ((X t).parkedLoads R af).cl * Real.sin (X t).phi * 0
        + (af.dcdda (X t).alpha ((X t).Re0 R) * (kron 0 (j + 1) - kron 2 (j + 1) - kron 8 (j + 1))
        + af.dcddRe (X t).alpha ((X t).Re0 R) * (R.rho * ((X t).chord * (((X t).Vx * kron 3 (j + 1) + (X t).Vy * kron 4 (j + 1))
            / Real.sqrt ((X t).Vx ^ 2 + (X t).Vy ^ 2))
          + Real.sqrt ((X t).Vx ^ 2 + (X t).Vy ^ 2) * kron 1 (j + 1)) / R.mu)) * Real.sin (X t).phi
        + ((X t).parkedLoads R af).cd * Real.cos (X t).phi * 0)
      + 2 / Real.sqrt ((X t).Vx ^ 2 + (X t).Vy ^ 2) * (((X t).Vx * kron 3 (j + 1) + (X t).Vy * kron 4 (j + 1))
            / Real.sqrt ((X t).Vx ^ 2 + (X t).Vy ^ 2)) + 1 / (X t).chord * kron 1 (j + 1)) := by
    intro j
    have ea : ((X t).parkedLoads R af).a = 0 := rfl
    have eap : ((X t).parkedLoads R af).ap = 0 := rfl
    simp only [D, SecIn.parkedDerivs, secDerivs, Bool.false_eq_true, if_false, ea, eap, SecIn.sec, SecIn.rotor, hw]
    rfl
  have hT : ∀ j, D.dTp (j + 1) = ((X t).parkedLoads R af).Tp * (1 / ((X t).parkedLoads R af).ct *
      ((af.dclda (X t).alpha ((X t).Re0 R) * (kron 0 (j + 1) - kron 2 (j + 1) - kron 8 (j + 1))
        + af.dcldRe (X t).alpha ((X t).Re0 R) * (R.rho * ((X t).chord * (((X t).Vx * kron 3 (j + 1) + (X t).Vy * kron 4 (j + 1))
            / Real.sqrt ((X t).Vx ^ 2 + (X t).Vy ^ 2))
          + Real.sqrt ((X t).Vx ^ 2 + (X t).Vy ^ 2) * kron 1 (j + 1)) / R.mu)) * Real.sin (X t).phi
        + ((X t).parkedLoads R af).cl * Real.cos (X t).phi * 0
        - (af.dcdda (X t).alpha ((X t).Re0 R) * (kron 0 (j + 1) - kron 2 (j + 1) - kron 8 (j + 1))
        + af.dcddRe (X t).alpha ((X t).Re0 R) * (R.rho * ((X t).chord * (((X t).Vx * kron 3 (j + 1) + (X t).Vy * kron 4 (j + 1))
            / Real.sqrt ((X t).Vx ^ 2 + (X t).Vy ^ 2))
          + Real.sqrt ((X t).Vx ^ 2 + (X t).Vy ^ 2) * kron 1 (j + 1)) / R.mu)) * Real.cos (X t).phi
        + ((X t).parkedLoads R af).cd * Real.sin (X t).phi * 0)
      + 2 / Real.sqrt ((X t).Vx ^ 2 + (X t).Vy ^ 2) * (((X t).Vx * kron 3 (j + 1) + (X t).Vy * kron 4 (j + 1))
            / Real.sqrt ((X t).Vx ^ 2 + (X t).Vy ^ 2)) + 1 / (X t).chord * kron 1 (j + 1)) := by
    intro j
    have ea : ((X t).parkedLoads R af).a = 0 := rfl
    have eap : ((X t).parkedLoads R af).ap = 0 := rfl
    simp only [D, SecIn.parkedDerivs, secDerivs, Bool.false_eq_true, if_false, ea, eap, SecIn.sec, SecIn.rotor, hw]
    rfl
  simp only [SecIn.parkedLoads_eq] at hD hT
  have sN : (∑ j ∈ Finset.range 8, d.get (j + 1) * (D.dNp (j + 1) - D.dNp 0 / D.dR 0 * D.dR (j + 1)))
      = ∑ j ∈ Finset.range 8, d.get (j + 1) * D.dNp (j + 1) :=
    Finset.sum_congr rfl fun j _ => by rw [e0 (j + 1)]; simp
  have sT : (∑ j ∈ Finset.range 8, d.get (j + 1) * (D.dTp (j + 1) - D.dTp 0 / D.dR 0 * D.dR (j + 1)))
      = ∑ j ∈ Finset.range 8, d.get (j + 1) * D.dTp (j + 1) :=
    Finset.sum_congr rfl fun j _ => by rw [e0 (j + 1)]; simp
  rw [sN, sT]
  have hk : ∀ a b : ℕ, (kron a b : ℝ) = if a = b then 1 else 0 := fun _ _ => rfl
  have hRe : (X t).Re0 R = R.rho * Real.sqrt ((X t).Vx ^ 2 + (X t).Vy ^ 2) * (X t).chord / R.mu := rfl
  constructor
  · refine ((((hcl.mul hX.phi.cos).add (hcd.mul hX.phi.sin)).mul hq).mul hX.chord).congr_deriv ?_
    simp only [hD, Finset.sum_range_succ, Finset.sum_range_zero, SecIn.get, hk, Pi.add_apply, Pi.mul_apply, Pi.pow_apply,
      hd0]
    norm_num
    rw [hphi t] at hcn ⊢
    simp only [Real.cos_pi_div_two, Real.sin_pi_div_two] at hcn ⊢
    replace hcn : (af.evaluate (X t).alpha ((X t).Re0 R)).2 ≠ 0 := by simpa using hcn
    generalize (af.evaluate (X t).alpha ((X t).Re0 R)).1 = cl at *
    generalize (af.evaluate (X t).alpha ((X t).Re0 R)).2 = cd at *
    generalize af.dcdda (X t).alpha ((X t).Re0 R) = p at *
    generalize af.dcddRe (X t).alpha ((X t).Re0 R) = r at *
    rw [hRe]
    generalize Real.sqrt ((X t).Vx ^ 2 + (X t).Vy ^ 2) = W at *
    rw [← hW2]
    simp only [div_eq_mul_inv R.rho, div_eq_mul_inv _ R.mu, mul_zero, mul_one, zero_add, add_zero, sub_zero, zero_sub]
    generalize R.mu⁻¹ = m
    field_simp
    ring
  · refine ((((hcl.mul hX.phi.sin).sub (hcd.mul hX.phi.cos)).mul hq).mul hX.chord).congr_deriv ?_
    simp only [hT, Finset.sum_range_succ, Finset.sum_range_zero, SecIn.get, hk, Pi.add_apply, Pi.sub_apply, Pi.mul_apply,
      Pi.pow_apply, hd0]
    norm_num
    rw [hphi t] at hct ⊢
    simp only [Real.cos_pi_div_two, Real.sin_pi_div_two] at hct ⊢
    replace hct : (af.evaluate (X t).alpha ((X t).Re0 R)).1 ≠ 0 := by simpa using hct
    generalize (af.evaluate (X t).alpha ((X t).Re0 R)).1 = cl at *
    generalize (af.evaluate (X t).alpha ((X t).Re0 R)).2 = cd at *
    generalize af.dclda (X t).alpha ((X t).Re0 R) = p at *
    generalize af.dcldRe (X t).alpha ((X t).Re0 R) = r at *
    rw [hRe]
    generalize Real.sqrt ((X t).Vx ^ 2 + (X t).Vy ^ 2) = W at *
    rw [← hW2]
    simp only [div_eq_mul_inv R.rho, div_eq_mul_inv _ R.mu, mul_zero, mul_one, zero_add, add_zero, sub_zero, zero_sub]
    generalize R.mu⁻¹ = m
    field_simp
    ring

end Verif
