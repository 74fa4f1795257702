import Verif.Props.InductionDeriv
import Verif.Model.CCBlade
import Mathlib.Analysis.Calculus.FDeriv.Prod
import Mathlib.Analysis.Calculus.FDeriv.Add
import Mathlib.Analysis.Calculus.Deriv.Prod

/-!
# Derivatives of residual and loads at a section (C38, C39, C40)

The nine inputs of a section move along a differentiable curve `t ↦ X t`.
-/

namespace Verif

open Filter Topology

/-! ## Specification -/

/-- The inputs of a section in the order the code uses for its derivatives:
`x = [phi, chord, theta, Vx, Vy, r, Rhub, Rtip, pitch]`. -/
structure SecIn where
  phi : ℝ
  chord : ℝ
  theta : ℝ
  Vx : ℝ
  Vy : ℝ
  r : ℝ
  Rhub : ℝ
  Rtip : ℝ
  pitch : ℝ

/-- The components in this order. -/
def SecIn.get (x : SecIn) : ℕ → ℝ
  | 0 => x.phi
  | 1 => x.chord
  | 2 => x.theta
  | 3 => x.Vx
  | 4 => x.Vy
  | 5 => x.r
  | 6 => x.Rhub
  | 7 => x.Rtip
  | 8 => x.pitch
  | _ => 0

/-- The curve `X` of inputs has velocity `d` at `t`. -/
structure SecIn.HasDeriv (X : ℝ → SecIn) (d : SecIn) (t : ℝ) : Prop where
  phi : HasDerivAt (fun s => (X s).phi) d.phi t
  chord : HasDerivAt (fun s => (X s).chord) d.chord t
  theta : HasDerivAt (fun s => (X s).theta) d.theta t
  Vx : HasDerivAt (fun s => (X s).Vx) d.Vx t
  Vy : HasDerivAt (fun s => (X s).Vy) d.Vy t
  r : HasDerivAt (fun s => (X s).r) d.r t
  Rhub : HasDerivAt (fun s => (X s).Rhub) d.Rhub t
  Rtip : HasDerivAt (fun s => (X s).Rtip) d.Rtip t
  pitch : HasDerivAt (fun s => (X s).pitch) d.pitch t

/-- The object with hub and tip radius of `x`. -/
def SecIn.rotor (R : Rotor ℝ) (x : SecIn) : Rotor ℝ := { R with Rhub := x.Rhub, Rtip := x.Rtip }

/-- The arguments of the private methods. -/
def SecIn.sec (af : AirfoilI ℝ) (x : SecIn) : Sec ℝ := ⟨x.r, x.chord, x.theta, af, x.Vx, x.Vy⟩

/-- The residual `__errorFunction` as a function of the nine inputs. -/
noncomputable def SecIn.residual (R : Rotor ℝ) (af : AirfoilI ℝ) (x : SecIn) : ℝ :=
  errFun (x.rotor R) x.pitch (x.sec af) x.phi

/-- The loads of the section of a turning rotor as a function of the nine inputs. -/
noncomputable def SecIn.loads (R : Rotor ℝ) (af : AirfoilI ℝ) (x : SecIn) : SecLoads ℝ :=
  secValues (x.rotor R) x.pitch x.phi true (x.sec af)

/-- Angle of attack. -/
def SecIn.alpha (x : SecIn) : ℝ := x.phi - x.theta - x.pitch

/-- Reynolds number of the undisturbed flow. -/
noncomputable def SecIn.Re0 (R : Rotor ℝ) (x : SecIn) : ℝ := R.rho * Real.sqrt (x.Vx ^ 2 + x.Vy ^ 2) * x.chord / R.mu

/-- The airfoil object reports the derivatives of its coefficients at the angle of attack `alpha` and the Reynolds
number `Re`. -/
structure AirfoilI.DiffAt (af : AirfoilI ℝ) (alpha Re : ℝ) : Prop where
  cl : HasFDerivAt (fun p : ℝ × ℝ => (af.evaluate p.1 p.2).1)
    (af.dclda alpha Re • ContinuousLinearMap.fst ℝ ℝ ℝ + af.dcldRe alpha Re • ContinuousLinearMap.snd ℝ ℝ ℝ) (alpha, Re)
  cd : HasFDerivAt (fun p : ℝ × ℝ => (af.evaluate p.1 p.2).2)
    (af.dcdda alpha Re • ContinuousLinearMap.fst ℝ ℝ ℝ + af.dcddRe alpha Re • ContinuousLinearMap.snd ℝ ℝ ℝ) (alpha, Re)

/-- The arguments of `inductionFactors` at the section. -/
noncomputable def SecIn.ind (R : Rotor ℝ) (af : AirfoilI ℝ) (x : SecIn) : IndIn ℝ :=
  ⟨x.r, x.chord, x.Rhub, x.Rtip, x.phi, (af.evaluate x.alpha (x.Re0 R)).1, (af.evaluate x.alpha (x.Re0 R)).2, x.Vx, x.Vy⟩

/-- The points at which the residual is differentiable and the derivative formulas divide by nothing zero. -/
structure SecRegular (R : Rotor ℝ) (af : AirfoilI ℝ) (x : SecIn) : Prop where
  chord : x.chord ≠ 0
  ind : IndRegular (x.ind R af) R.B R.opts
  airfoil : af.DiffAt x.alpha (x.Re0 R)

/-! ## Helpers -/

theorem AirfoilI.DiffAt.curve {af : AirfoilI ℝ} {A E : ℝ → ℝ} {A' E' t : ℝ} (h : af.DiffAt (A t) (E t))
    (hA : HasDerivAt A A' t) (hE : HasDerivAt E E' t) :
    HasDerivAt (fun s => (af.evaluate (A s) (E s)).1) (af.dclda (A t) (E t) * A' + af.dcldRe (A t) (E t) * E') t ∧
    HasDerivAt (fun s => (af.evaluate (A s) (E s)).2) (af.dcdda (A t) (E t) * A' + af.dcddRe (A t) (E t) * E') t := by
  constructor
  · have := HasFDerivAt.comp_hasDerivAt (f := fun s => (A s, E s)) t h.cl (HasDerivAt.prodMk hA hE)
    exact this.congr_deriv (by simp)
  · have := HasFDerivAt.comp_hasDerivAt (f := fun s => (A s, E s)) t h.cd (HasDerivAt.prodMk hA hE)
    exact this.congr_deriv (by simp)

/-- The combination `∑ c j • D j` of the first `n` directions. -/
def IndIn.lin (c : ℕ → ℝ) (D : ℕ → IndIn ℝ) : ℕ → IndIn ℝ
  | 0 => ⟨0, 0, 0, 0, 0, 0, 0, 0, 0⟩
  | n + 1 => IndIn.comb (c n) (D n) (IndIn.lin c D n)

theorem inductionFactorsDv_lin (x : IndIn ℝ) (B : ℕ) (o : BemOpts) (c : ℕ → ℝ) (D : ℕ → IndIn ℝ) :
    ∀ n, (inductionFactorsDv x (IndIn.lin c D n) B o).fzerod
        = ∑ j ∈ Finset.range n, c j * (inductionFactorsDv x (D j) B o).fzerod ∧
      (inductionFactorsDv x (IndIn.lin c D n) B o).ad
        = ∑ j ∈ Finset.range n, c j * (inductionFactorsDv x (D j) B o).ad ∧
      (inductionFactorsDv x (IndIn.lin c D n) B o).apd
        = ∑ j ∈ Finset.range n, c j * (inductionFactorsDv x (D j) B o).apd
  | 0 => by
    have e : (⟨0, 0, 0, 0, 0, 0, 0, 0, 0⟩ : IndIn ℝ)
        = IndIn.comb (-1) ⟨0, 0, 0, 0, 0, 0, 0, 0, 0⟩ ⟨0, 0, 0, 0, 0, 0, 0, 0, 0⟩ := by simp [IndIn.comb]
    obtain ⟨h1, h2, h3⟩ := inductionFactorsDv_linear x ⟨0, 0, 0, 0, 0, 0, 0, 0, 0⟩ ⟨0, 0, 0, 0, 0, 0, 0, 0, 0⟩ (-1) B o
    rw [← e] at h1 h2 h3
    simp only [IndIn.lin, Finset.range_zero, Finset.sum_empty]
    refine ⟨by linarith, by linarith, by linarith⟩
  | n + 1 => by
    obtain ⟨i1, i2, i3⟩ := inductionFactorsDv_lin x B o c D n
    obtain ⟨h1, h2, h3⟩ := inductionFactorsDv_linear x (D n) (IndIn.lin c D n) (c n) B o
    simp only [Finset.sum_range_succ, ← i1, ← i2, ← i3]
    exact ⟨h1.trans (add_comm _ _), h2.trans (add_comm _ _), h3.trans (add_comm _ _)⟩

/-- The combination `∑ c j • D j` of the first `n` directions. -/
def RelIn.lin (c : ℕ → ℝ) (D : ℕ → RelIn ℝ) : ℕ → RelIn ℝ
  | 0 => ⟨0, 0, 0, 0, 0, 0, 0, 0⟩
  | n + 1 => RelIn.comb (c n) (D n) (RelIn.lin c D n)

theorem relativeWindDv_lin (x : RelIn ℝ) (rho mu : ℝ) (c : ℕ → ℝ) (D : ℕ → RelIn ℝ) :
    ∀ n, (relativeWindDv x (RelIn.lin c D n) rho mu).alphad
        = ∑ j ∈ Finset.range n, c j * (relativeWindDv x (D j) rho mu).alphad ∧
      (relativeWindDv x (RelIn.lin c D n) rho mu).Wd
        = ∑ j ∈ Finset.range n, c j * (relativeWindDv x (D j) rho mu).Wd ∧
      (relativeWindDv x (RelIn.lin c D n) rho mu).Red
        = ∑ j ∈ Finset.range n, c j * (relativeWindDv x (D j) rho mu).Red
  | 0 => by
    have e : (⟨0, 0, 0, 0, 0, 0, 0, 0⟩ : RelIn ℝ)
        = RelIn.comb (-1) ⟨0, 0, 0, 0, 0, 0, 0, 0⟩ ⟨0, 0, 0, 0, 0, 0, 0, 0⟩ := by simp [RelIn.comb]
    obtain ⟨h1, h2, h3⟩ := relativeWindDv_linear x ⟨0, 0, 0, 0, 0, 0, 0, 0⟩ ⟨0, 0, 0, 0, 0, 0, 0, 0⟩ (-1) rho mu
    rw [← e] at h1 h2 h3
    simp only [RelIn.lin, Finset.range_zero, Finset.sum_empty]
    refine ⟨by linarith, by linarith, by linarith⟩
  | n + 1 => by
    obtain ⟨i1, i2, i3⟩ := relativeWindDv_lin x rho mu c D n
    obtain ⟨h1, h2, h3⟩ := relativeWindDv_linear x (D n) (RelIn.lin c D n) (c n) rho mu
    simp only [Finset.sum_range_succ, ← i1, ← i2, ← i3]
    exact ⟨h1.trans (add_comm _ _), h2.trans (add_comm _ _), h3.trans (add_comm _ _)⟩

theorem relSpeed_zero (phi Vx Vy : ℝ) : relSpeed phi 0 0 Vx Vy = Real.sqrt (Vx ^ 2 + Vy ^ 2) := by
  simp only [relSpeed, num_real, abs_zero]
  rw [if_neg (by push_cast; norm_num), if_neg (by push_cast; norm_num)]
  ring_nf

theorem SecIn.runBEM_eq (R : Rotor ℝ) (hR : R.iterRe = 1) (af : AirfoilI ℝ) (x : SecIn) :
    runBEM (x.rotor R) x.pitch x.phi (x.sec af)
      = ⟨((x.ind R af).eval R.B R.opts).fzero, ((x.ind R af).eval R.B R.opts).a, ((x.ind R af).eval R.B R.opts).ap,
          (x.ind R af).cl, (x.ind R af).cd⟩ := by
  have : (x.rotor R).iterRe - 1 = 0 := by simp [SecIn.rotor, hR]
  rw [runBEM, this, bemPasses]
  simp only [bemPass, IndIn.eval, SecIn.ind, SecIn.rotor, SecIn.sec, relativeWind, relSpeed_zero,
    SecIn.alpha, SecIn.Re0, sub_sub]

theorem SecIn.residual_eq (R : Rotor ℝ) (hR : R.iterRe = 1) (af : AirfoilI ℝ) (x : SecIn) :
    x.residual R af = ((x.ind R af).eval R.B R.opts).fzero := by
  simp only [SecIn.residual, errFun, SecIn.runBEM_eq R hR]

/-- The direction of the arguments of `inductionFactors` used by the code for the input `j`. -/
noncomputable def SecIn.indDir (R : Rotor ℝ) (af : AirfoilI ℝ) (x : SecIn) (j : ℕ) : IndIn ℝ :=
  let dalpha : ℝ := if j = 0 then 1 else if j = 2 then -1 else if j = 8 then -1 else 0
  let W2 := x.Vx ^ 2 + x.Vy ^ 2
  let dRe : ℝ := if j = 1 then x.Re0 R / x.chord else if j = 3 then x.Re0 R * x.Vx / W2
    else if j = 4 then x.Re0 R * x.Vy / W2 else 0
  ⟨kron 5 j, kron 1 j, kron 6 j, kron 7 j, kron 0 j,
    af.dclda x.alpha (x.Re0 R) * dalpha + af.dcldRe x.alpha (x.Re0 R) * dRe,
    af.dcdda x.alpha (x.Re0 R) * dalpha + af.dcddRe x.alpha (x.Re0 R) * dRe, kron 3 j, kron 4 j⟩

theorem SecIn.residualDerivatives_eq (R : Rotor ℝ) (af : AirfoilI ℝ) (x : SecIn) (j : ℕ) :
    residualDerivatives (x.rotor R) x.pitch x.phi (x.sec af) j
      = inductionFactorsDv (x.ind R af) (x.indDir R af j) R.B R.opts := by
  have h : (0 : ℝ) ≤ x.Vx ^ 2 + x.Vy ^ 2 := by positivity
  simp only [residualDerivatives, SecIn.ind, SecIn.indDir, SecIn.rotor, SecIn.sec, relativeWind, relSpeed_zero,
    SecIn.alpha, SecIn.Re0, sub_sub, real_sq, Real.sq_sqrt h]

section
variable {R : Rotor ℝ} {af : AirfoilI ℝ} {X : ℝ → SecIn} {d : SecIn} {t : ℝ}

theorem SecIn.alpha_deriv (hX : SecIn.HasDeriv X d t) :
    HasDerivAt (fun s => (X s).alpha) (d.phi - d.theta - d.pitch) t := (hX.phi.sub hX.theta).sub hX.pitch

theorem SecIn.Re0_deriv (hX : SecIn.HasDeriv X d t) (hc : (X t).chord ≠ 0) (hV : (X t).Vx ≠ 0) :
    HasDerivAt (fun s => (X s).Re0 R) ((X t).Re0 R / (X t).chord * d.chord
      + (X t).Re0 R * (X t).Vx / ((X t).Vx ^ 2 + (X t).Vy ^ 2) * d.Vx
      + (X t).Re0 R * (X t).Vy / ((X t).Vx ^ 2 + (X t).Vy ^ 2) * d.Vy) t := by
  have hpos : 0 < (X t).Vx ^ 2 + (X t).Vy ^ 2 := by positivity
  have hs : HasDerivAt (fun s => Real.sqrt ((X s).Vx ^ 2 + (X s).Vy ^ 2)) _ t :=
    ((hX.Vx.pow 2).add (hX.Vy.pow 2)).sqrt hpos.ne'
  have := ((hs.const_mul R.rho).mul hX.chord).div_const R.mu
  refine this.congr_deriv ?_
  simp only [SecIn.Re0, Pi.add_apply, Pi.pow_apply]
  have h0 : Real.sqrt ((X t).Vx ^ 2 + (X t).Vy ^ 2) ≠ 0 := (Real.sqrt_pos.mpr hpos).ne'
  have h2 : Real.sqrt ((X t).Vx ^ 2 + (X t).Vy ^ 2) ^ 2 = (X t).Vx ^ 2 + (X t).Vy ^ 2 := Real.sq_sqrt hpos.le
  generalize Real.sqrt ((X t).Vx ^ 2 + (X t).Vy ^ 2) = W at *
  rw [← h2]
  simp only [div_eq_mul_inv]
  generalize R.mu⁻¹ = m
  field_simp
  push_cast
  ring

theorem SecIn.ind_deriv (hX : SecIn.HasDeriv X d t) (h : SecRegular R af (X t)) :
    IndIn.HasDeriv (fun s => (X s).ind R af) (IndIn.lin d.get ((X t).indDir R af) 9) t := by
  obtain ⟨h1, h2⟩ := h.airfoil.curve (SecIn.alpha_deriv hX) (SecIn.Re0_deriv (R := R) hX h.chord h.ind.Vx)
  constructor
  · exact hX.r.congr_deriv (by simp [IndIn.lin, IndIn.comb, SecIn.indDir, kron, SecIn.get])
  · exact hX.chord.congr_deriv (by simp [IndIn.lin, IndIn.comb, SecIn.indDir, kron, SecIn.get])
  · exact hX.Rhub.congr_deriv (by simp [IndIn.lin, IndIn.comb, SecIn.indDir, kron, SecIn.get])
  · exact hX.Rtip.congr_deriv (by simp [IndIn.lin, IndIn.comb, SecIn.indDir, kron, SecIn.get])
  · exact hX.phi.congr_deriv (by simp [IndIn.lin, IndIn.comb, SecIn.indDir, kron, SecIn.get])
  · refine h1.congr_deriv ?_
    simp only [IndIn.lin, IndIn.comb, SecIn.indDir, SecIn.get]
    norm_num
    ring
  · refine h2.congr_deriv ?_
    simp only [IndIn.lin, IndIn.comb, SecIn.indDir, SecIn.get]
    norm_num
    ring
  · exact hX.Vx.congr_deriv (by simp [IndIn.lin, IndIn.comb, SecIn.indDir, kron, SecIn.get])
  · exact hX.Vy.congr_deriv (by simp [IndIn.lin, IndIn.comb, SecIn.indDir, kron, SecIn.get])

end

/-! ## C38 -/

/-- **C38** The nine derivatives the code computes for the residual, and those for the two induction factors, are the
partial derivatives of the quantities the solver evaluates: along every differentiable curve of inputs they give, weighted
with the velocities, the derivative. -/
theorem residualDerivatives_correct (R : Rotor ℝ) (hR : R.iterRe = 1) (af : AirfoilI ℝ) (X : ℝ → SecIn) (d : SecIn)
    (t : ℝ) (hX : SecIn.HasDeriv X d t) (h : SecRegular R af (X t)) :
    let D := residualDerivatives ((X t).rotor R) (X t).pitch (X t).phi ((X t).sec af)
    HasDerivAt (fun s => (X s).residual R af) (∑ j ∈ Finset.range 9, d.get j * (D j).fzerod) t ∧
    HasDerivAt (fun s => ((X s).loads R af).a) (∑ j ∈ Finset.range 9, d.get j * (D j).ad) t ∧
    HasDerivAt (fun s => ((X s).loads R af).ap) (∑ j ∈ Finset.range 9, d.get j * (D j).apd) t := by
  intro D
  obtain ⟨h1, h2, h3⟩ := inductionFactorsDv_correct _ _ t R.B R.opts (SecIn.ind_deriv hX h) h.ind
  obtain ⟨l1, l2, l3⟩ := inductionFactorsDv_lin ((X t).ind R af) R.B R.opts d.get ((X t).indDir R af) 9
  rw [l1] at h1
  rw [l2] at h2
  rw [l3] at h3
  simp only [D, SecIn.residualDerivatives_eq]
  refine ⟨?_, ?_, ?_⟩
  · simpa only [SecIn.residual_eq R hR] using h1
  · simpa only [SecIn.loads, secValues, SecIn.runBEM_eq R hR, if_true] using h2
  · simpa only [SecIn.loads, secValues, SecIn.runBEM_eq R hR, if_true] using h3

/-! ## Loads -/

/-- The arguments of `relativewind` at the section. -/
noncomputable def SecIn.rel (R : Rotor ℝ) (af : AirfoilI ℝ) (x : SecIn) : RelIn ℝ :=
  ⟨x.phi, (x.loads R af).a, (x.loads R af).ap, x.Vx, x.Vy, x.pitch, x.chord, x.theta⟩

/-- The points at which the loads are differentiable and the derivative formulas divide by nothing zero. -/
structure LoadRegular (R : Rotor ℝ) (af : AirfoilI ℝ) (x : SecIn) : Prop extends SecRegular R af x where
  rel : RelRegular (x.rel R af)
  W : (x.loads R af).W ≠ 0
  cn : (x.loads R af).cn ≠ 0
  ct : (x.loads R af).ct ≠ 0

/-- The direction of the arguments of `relativewind` used by the code for the input `j`. -/
noncomputable def SecIn.relDir (R : Rotor ℝ) (af : AirfoilI ℝ) (x : SecIn) (j : ℕ) : RelIn ℝ :=
  let D := residualDerivatives (x.rotor R) x.pitch x.phi (x.sec af) j
  ⟨kron 0 j, D.ad, D.apd, kron 3 j, kron 4 j, kron 8 j, kron 1 j, kron 2 j⟩

theorem SecIn.loads_eq (R : Rotor ℝ) (hR : R.iterRe = 1) (af : AirfoilI ℝ) (x : SecIn) :
    let l := x.loads R af
    l.cl = (af.evaluate x.alpha (x.Re0 R)).1 ∧ l.cd = (af.evaluate x.alpha (x.Re0 R)).2 ∧
    l.W = ((x.rel R af).eval R.rho R.mu).W ∧ l.Re = ((x.rel R af).eval R.rho R.mu).Re ∧
    ((x.rel R af).eval R.rho R.mu).alpha = x.alpha ∧
    l.cn = l.cl * Real.cos x.phi + l.cd * Real.sin x.phi ∧ l.ct = l.cl * Real.sin x.phi - l.cd * Real.cos x.phi ∧
    l.q = 1 / 2 * R.rho * l.W ^ 2 ∧ l.Np = l.cn * l.q * x.chord ∧ l.Tp = l.ct * l.q * x.chord := by
  have hb := SecIn.runBEM_eq R hR af x
  simp only [SecIn.rel, SecIn.loads, secValues, hb, if_true, RelIn.eval]
  refine ⟨rfl, rfl, rfl, rfl, ?_, rfl, rfl, ?_, rfl, rfl⟩
  · simp only [relativeWind, SecIn.alpha, sub_sub]
  · simp only [num_real]
    push_cast
    rfl

section
variable {R : Rotor ℝ} {af : AirfoilI ℝ} {X : ℝ → SecIn} {d : SecIn} {t : ℝ}

theorem SecIn.rel_deriv (hR : R.iterRe = 1) (hX : SecIn.HasDeriv X d t) (h : SecRegular R af (X t)) :
    RelIn.HasDeriv (fun s => (X s).rel R af) (RelIn.lin d.get ((X t).relDir R af) 9) t := by
  obtain ⟨-, h1, h2⟩ := residualDerivatives_correct R hR af X d t hX h
  constructor
  · exact hX.phi.congr_deriv (by simp [RelIn.lin, RelIn.comb, SecIn.relDir, kron, SecIn.get])
  · refine h1.congr_deriv ?_
    simp only [Finset.sum_range_succ, Finset.sum_range_zero, RelIn.lin, RelIn.comb, SecIn.relDir]
    ring
  · refine h2.congr_deriv ?_
    simp only [Finset.sum_range_succ, Finset.sum_range_zero, RelIn.lin, RelIn.comb, SecIn.relDir]
    ring
  · exact hX.Vx.congr_deriv (by simp [RelIn.lin, RelIn.comb, SecIn.relDir, kron, SecIn.get])
  · exact hX.Vy.congr_deriv (by simp [RelIn.lin, RelIn.comb, SecIn.relDir, kron, SecIn.get])
  · exact hX.pitch.congr_deriv (by simp [RelIn.lin, RelIn.comb, SecIn.relDir, kron, SecIn.get])
  · exact hX.chord.congr_deriv (by simp [RelIn.lin, RelIn.comb, SecIn.relDir, kron, SecIn.get])
  · exact hX.theta.congr_deriv (by simp [RelIn.lin, RelIn.comb, SecIn.relDir, kron, SecIn.get])

/-- The derivatives of wind speed and Reynolds number the code computes are exact. -/
theorem SecIn.wind_deriv (hR : R.iterRe = 1) (hX : SecIn.HasDeriv X d t) (h : SecRegular R af (X t))
    (hr : RelRegular ((X t).rel R af)) :
    HasDerivAt (fun s => (X s).alpha)
      (∑ j ∈ Finset.range 9, d.get j * (relativeWindDv ((X t).rel R af) ((X t).relDir R af j) R.rho R.mu).alphad) t ∧
    HasDerivAt (fun s => ((X s).loads R af).W)
      (∑ j ∈ Finset.range 9, d.get j * (relativeWindDv ((X t).rel R af) ((X t).relDir R af j) R.rho R.mu).Wd) t ∧
    HasDerivAt (fun s => ((X s).loads R af).Re)
      (∑ j ∈ Finset.range 9, d.get j * (relativeWindDv ((X t).rel R af) ((X t).relDir R af j) R.rho R.mu).Red) t := by
  obtain ⟨h1, h2, h3⟩ := relativeWindDv_correct _ _ t R.rho R.mu (SecIn.rel_deriv hR hX h) hr
  obtain ⟨l1, l2, l3⟩ := relativeWindDv_lin ((X t).rel R af) R.rho R.mu d.get ((X t).relDir R af) 9
  rw [l1] at h1
  rw [l2] at h2
  rw [l3] at h3
  refine ⟨?_, ?_, ?_⟩
  · exact h1.congr_of_eventuallyEq (Eventually.of_forall fun s => (SecIn.loads_eq R hR af (X s)).2.2.2.2.1.symm)
  · exact h2.congr_of_eventuallyEq (Eventually.of_forall fun s => (SecIn.loads_eq R hR af (X s)).2.2.1)
  · exact h3.congr_of_eventuallyEq (Eventually.of_forall fun s => (SecIn.loads_eq R hR af (X s)).2.2.2.1)

end

/-- The derivatives of the loads as computed by the code for the section. -/
noncomputable def SecIn.derivs (R : Rotor ℝ) (af : AirfoilI ℝ) (x : SecIn) : SecDerivs ℝ :=
  secDerivs (x.rotor R) x.pitch x.phi true (x.sec af) (x.loads R af)

/-- **C40** What the derivatives of the loads amount to for every differentiable airfoil: the code evaluates lift and drag at
the Reynolds number `Re0` of the undisturbed flow, and differentiates them at the Reynolds number `Re` of the disturbed
flow.  The reported derivative differs from the derivative of the reported load by `q c` times the difference of the two
derivatives of the coefficients. -/
theorem secDerivs_gap (R : Rotor ℝ) (hR : R.iterRe = 1) (af : AirfoilI ℝ) (X : ℝ → SecIn) (d : SecIn) (t : ℝ)
    (hX : SecIn.HasDeriv X d t) (h : LoadRegular R af (X t)) :
    let l := (X t).loads R af
    let D := (X t).derivs R af
    ∃ alpha' Re0' Re', HasDerivAt (fun s => (X s).alpha) alpha' t ∧ HasDerivAt (fun s => (X s).Re0 R) Re0' t ∧
      HasDerivAt (fun s => ((X s).loads R af).Re) Re' t ∧
      ∀ gcl gcd,
      gcl = (af.dclda (X t).alpha ((X t).Re0 R) * alpha' + af.dcldRe (X t).alpha ((X t).Re0 R) * Re0')
        - (af.dclda (X t).alpha l.Re * alpha' + af.dcldRe (X t).alpha l.Re * Re') →
      gcd = (af.dcdda (X t).alpha ((X t).Re0 R) * alpha' + af.dcddRe (X t).alpha ((X t).Re0 R) * Re0')
        - (af.dcdda (X t).alpha l.Re * alpha' + af.dcddRe (X t).alpha l.Re * Re') →
      HasDerivAt (fun s => ((X s).loads R af).Np)
        ((∑ j ∈ Finset.range 9, d.get j * D.dNp j)
          + l.q * (X t).chord * (gcl * Real.cos (X t).phi + gcd * Real.sin (X t).phi)) t ∧
      HasDerivAt (fun s => ((X s).loads R af).Tp)
        ((∑ j ∈ Finset.range 9, d.get j * D.dTp j)
          + l.q * (X t).chord * (gcl * Real.sin (X t).phi - gcd * Real.cos (X t).phi)) t := by
  intro l D
  obtain ⟨ha, hW, hRe⟩ := SecIn.wind_deriv hR hX h.toSecRegular h.rel
  have hRe0 := SecIn.Re0_deriv (R := R) hX h.chord h.ind.Vx
  refine ⟨_, _, _, ha, hRe0, hRe, ?_⟩
  obtain ⟨hcl, hcd⟩ := h.airfoil.curve ha hRe0
  obtain ⟨e1, e2, e3, e4, e5, e6, e7, e8, e9, e10⟩ := SecIn.loads_eq R hR af (X t)
  have hNp : (fun s => ((X s).loads R af).Np) = fun s => ((af.evaluate (X s).alpha ((X s).Re0 R)).1 * Real.cos (X s).phi
      + (af.evaluate (X s).alpha ((X s).Re0 R)).2 * Real.sin (X s).phi) * (1 / 2 * R.rho * ((X s).loads R af).W ^ 2)
        * (X s).chord := by
    funext s
    obtain ⟨e1, e2, e3, e4, e5, e6, e7, e8, e9, e10⟩ := SecIn.loads_eq R hR af (X s)
    rw [e9, e6, e8, e1, e2]
  have hTp : (fun s => ((X s).loads R af).Tp) = fun s => ((af.evaluate (X s).alpha ((X s).Re0 R)).1 * Real.sin (X s).phi
      - (af.evaluate (X s).alpha ((X s).Re0 R)).2 * Real.cos (X s).phi) * (1 / 2 * R.rho * ((X s).loads R af).W ^ 2)
        * (X s).chord := by
    funext s
    obtain ⟨e1, e2, e3, e4, e5, e6, e7, e8, e9, e10⟩ := SecIn.loads_eq R hR af (X s)
    rw [e10, e7, e8, e1, e2]
  -- what the code computes
  obtain ⟨v1, -, v3⟩ := relativeWindDv_values ((X t).rel R af) ((X t).relDir R af 0) R.rho R.mu
  have v2 : ∀ j, (relativeWindDv ((X t).rel R af) ((X t).relDir R af j) R.rho R.mu).W = l.W := fun j =>
    (relativeWindDv_values ((X t).rel R af) ((X t).relDir R af j) R.rho R.mu).2.1.trans e3.symm
  rw [e5] at v1
  rw [← e4] at v3
  generalize hA : (∑ j ∈ Finset.range 9, d.get j *
    (relativeWindDv ((X t).rel R af) ((X t).relDir R af j) R.rho R.mu).alphad) = A at *
  generalize hE : (∑ j ∈ Finset.range 9, d.get j *
    (relativeWindDv ((X t).rel R af) ((X t).relDir R af j) R.rho R.mu).Red) = E at *
  generalize hV : (∑ j ∈ Finset.range 9, d.get j *
    (relativeWindDv ((X t).rel R af) ((X t).relDir R af j) R.rho R.mu).Wd) = V at *
  have sumN : (∑ j ∈ Finset.range 9, d.get j * D.dNp j) = l.Np * (1 / l.cn *
      ((af.dclda (X t).alpha l.Re * A + af.dcldRe (X t).alpha l.Re * E) * Real.cos (X t).phi
        - l.cl * Real.sin (X t).phi * d.phi
        + (af.dcdda (X t).alpha l.Re * A + af.dcddRe (X t).alpha l.Re * E) * Real.sin (X t).phi
        + l.cd * Real.cos (X t).phi * d.phi) + 2 / l.W * V + 1 / (X t).chord * d.chord) := by
    have hD : ∀ j, D.dNp j = l.Np * (1 / l.cn *
        ((af.dclda (X t).alpha l.Re * (relativeWindDv ((X t).rel R af) ((X t).relDir R af j) R.rho R.mu).alphad
            + af.dcldRe (X t).alpha l.Re * (relativeWindDv ((X t).rel R af) ((X t).relDir R af j) R.rho R.mu).Red)
          * Real.cos (X t).phi - l.cl * Real.sin (X t).phi * kron 0 j
        + (af.dcdda (X t).alpha l.Re * (relativeWindDv ((X t).rel R af) ((X t).relDir R af j) R.rho R.mu).alphad
            + af.dcddRe (X t).alpha l.Re * (relativeWindDv ((X t).rel R af) ((X t).relDir R af j) R.rho R.mu).Red)
          * Real.sin (X t).phi + l.cd * Real.cos (X t).phi * kron 0 j)
        + 2 / l.W * (relativeWindDv ((X t).rel R af) ((X t).relDir R af j) R.rho R.mu).Wd + 1 / (X t).chord * kron 1 j) := by
      intro j
      rw [← v1, ← v3, ← v2 0]
      rfl
    simp only [hD, ← hA, ← hE, ← hV, Finset.sum_range_succ, Finset.sum_range_zero, kron, SecIn.get]
    norm_num
    ring
  have sumT : (∑ j ∈ Finset.range 9, d.get j * D.dTp j) = l.Tp * (1 / l.ct *
      ((af.dclda (X t).alpha l.Re * A + af.dcldRe (X t).alpha l.Re * E) * Real.sin (X t).phi
        + l.cl * Real.cos (X t).phi * d.phi
        - (af.dcdda (X t).alpha l.Re * A + af.dcddRe (X t).alpha l.Re * E) * Real.cos (X t).phi
        + l.cd * Real.sin (X t).phi * d.phi) + 2 / l.W * V + 1 / (X t).chord * d.chord) := by
    have hD : ∀ j, D.dTp j = l.Tp * (1 / l.ct *
        ((af.dclda (X t).alpha l.Re * (relativeWindDv ((X t).rel R af) ((X t).relDir R af j) R.rho R.mu).alphad
            + af.dcldRe (X t).alpha l.Re * (relativeWindDv ((X t).rel R af) ((X t).relDir R af j) R.rho R.mu).Red)
          * Real.sin (X t).phi + l.cl * Real.cos (X t).phi * kron 0 j
        - (af.dcdda (X t).alpha l.Re * (relativeWindDv ((X t).rel R af) ((X t).relDir R af j) R.rho R.mu).alphad
            + af.dcddRe (X t).alpha l.Re * (relativeWindDv ((X t).rel R af) ((X t).relDir R af j) R.rho R.mu).Red)
          * Real.cos (X t).phi + l.cd * Real.sin (X t).phi * kron 0 j)
        + 2 / l.W * (relativeWindDv ((X t).rel R af) ((X t).relDir R af j) R.rho R.mu).Wd + 1 / (X t).chord * kron 1 j) := by
      intro j
      rw [← v1, ← v3, ← v2 0]
      rfl
    simp only [hD, ← hA, ← hE, ← hV, Finset.sum_range_succ, Finset.sum_range_zero, kron, SecIn.get]
    norm_num
    ring
  intro gcl gcd hgcl hgcd
  have hcn := h.cn
  have hct := h.ct
  have hW0 := h.W
  have hc0 := h.chord
  have hq : HasDerivAt (fun s => 1 / 2 * R.rho * ((X s).loads R af).W ^ 2) _ t := (hW.pow 2).const_mul _
  rw [sumN, sumT, hNp, hTp]
  change l.cl = _ at e1
  change l.cd = _ at e2
  change l.cn = _ at e6
  change l.ct = _ at e7
  change l.q = _ at e8
  change l.Np = _ at e9
  change l.Tp = _ at e10
  change l.cn ≠ 0 at hcn
  change l.ct ≠ 0 at hct
  change l.W ≠ 0 at hW0
  constructor
  · refine ((((hcl.mul hX.phi.cos).add (hcd.mul hX.phi.sin)).mul hq).mul hX.chord).congr_deriv ?_
    simp only [Pi.add_apply, Pi.mul_apply, Pi.pow_apply]
    rw [← e1, ← e2, e9, e8]
    change _ = _
    have hWW : ((X t).loads R af).W = l.W := rfl
    rw [hWW, hgcl, hgcd]
    field_simp
    rw [e6]
    push_cast
    ring
  · refine ((((hcl.mul hX.phi.sin).sub (hcd.mul hX.phi.cos)).mul hq).mul hX.chord).congr_deriv ?_
    simp only [Pi.sub_apply, Pi.mul_apply, Pi.pow_apply]
    rw [← e1, ← e2, e10, e8]
    have hWW : ((X t).loads R af).W = l.W := rfl
    rw [hWW, hgcl, hgcd]
    field_simp
    rw [e7]
    push_cast
    ring

end Verif
