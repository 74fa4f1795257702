import Verif.Props.RotorDict

/-!
# The rotor derivatives from end to end (C49)

`rotor_dictionary` supposes exact load dictionaries, `loads_dictionary` supplies them.
-/

namespace Verif

open Filter Topology Finset

/-- The sectors return loads with exact dictionaries. -/
theorem sector_dictionaries (bq : RootFinder ℝ) (R : Rotor ℝ) (hn : 2 ≤ R.n) (hder : R.derivatives = true) (hit : R.iterRe = 1)
    (hinv : R.inv = none) (npts : ℕ) (co : Bool) (D : ℝ → RotorDesign) (V : RotorDesign) (t : ℝ)
    (hV : RotorDesign.HasDeriv R.n npts D V t) (o : ℝ → EvalOut ℝ)
    (hcall : ∀ᶠ s in 𝓝 t, (D s).call bq R npts co = .ok (o s)) (m : ℕ) (hm : m < npts)
    (hind : ∀ i < R.n, (R.af i).ReIndependent)
    (P : ℕ → ℕ → ℝ → ℝ) (hP : ∀ k < R.nSector, ∀ i < R.n, ContinuousAt (P k i) t)
    (hphi : ∀ k < R.nSector, ∀ i < R.n, ∀ᶠ s in 𝓝 t, ∀ L, ((D s).cond m (k * (360 / R.nSector))).call bq R = .ok L →
      ∃ st, L.stations[i]? = some st ∧ st.phi = P k i s)
    (hroot : ∀ k < R.nSector, ∀ i < R.n, ∀ᶠ s in 𝓝 t,
      (((D s).cond m (k * (360 / R.nSector))).sec R.n i (P k i s)).residual R (R.af i) = 0)
    (hsec : ∀ k < R.nSector, ∀ i < R.n, DictRegular R ((D t).cond m (k * (360 / R.nSector))) i (P k i t))
    (hr : (∀ j < R.n, V.r j = 0) ∨ ∀ j < R.n, (D t).precurve j = (D t).precurve 0) :
    ∃ L : ℝ → ℕ → LoadsOut ℝ,
      (∀ᶠ s in 𝓝 t, ∀ k < R.nSector, ((D s).cond m (k * (360 / R.nSector))).call bq R = .ok (L s k)) ∧
      ∀ k < R.nSector, ∀ i < R.n,
        HasDerivAt (fun s => stationArr (L s k).stations SecLoads.Np i) (dictApply R.n (L t k).dNp (V.cond m 0) i) t ∧
        HasDerivAt (fun s => stationArr (L s k).stations SecLoads.Tp i) (dictApply R.n (L t k).dTp (V.cond m 0) i) t := by
  have hok : ∀ s, (D s).call bq R npts co = .ok (o s) →
      ∀ k < R.nSector, ∃ L, ((D s).cond m (k * (360 / R.nSector))).call bq R = .ok L := by
    intro s hs k hk
    obtain ⟨x, -, ha, -⟩ := RotorDesign.entry hs hm
    obtain ⟨L, hL⟩ := (condAcc_ok_iff _ _ _).mp ⟨_, ha⟩ k hk
    refine ⟨L, ?_⟩
    rw [← RotorDesign.loads_eq]
    exact hL
  have hex : ∀ s k, ∃ L, (D s).call bq R npts co = .ok (o s) → k < R.nSector →
      ((D s).cond m (k * (360 / R.nSector))).call bq R = .ok L := by
    intro s k
    by_cases h : (D s).call bq R npts co = .ok (o s) ∧ k < R.nSector
    · obtain ⟨L, hL⟩ := hok s h.1 k h.2
      exact ⟨L, fun _ _ => hL⟩
    · exact ⟨⟨[], [], []⟩, fun h1 h2 => absurd ⟨h1, h2⟩ h⟩
  choose L hL using hex
  have hLe : ∀ᶠ s in 𝓝 t, ∀ k < R.nSector, ((D s).cond m (k * (360 / R.nSector))).call bq R = .ok (L s k) :=
    hcall.mono fun s hs k hk => hL s k hs hk
  refine ⟨L, hLe, fun k hk i hi => ?_⟩
  refine loads_dictionary bq R hn hder hit hinv (fun s => (D s).cond m (k * (360 / R.nSector))) (V.cond m 0) t
    (hV.cond m hm _) (fun s => L s k) (hLe.mono fun s h => h k hk) i hi (hind i hi) (P k i) (hP k hk i hi) ?_ (hroot k hk i hi)
    (hsec k hk i hi) (hr.imp (fun h j hj _ => h j hj) id)
  filter_upwards [hLe, hphi k hk i hi] with s h1 h2
  exact h2 _ (h1 k hk)

/-- **C49** From end to end: where the inflow angles of all stations and sectors are roots of the residual, vary continuously
and are regular, the dictionaries of `evaluate` for thrust, side forces, torque, moments, blade moment and power are the
derivatives of these outputs along every curve of designs (radii vary only on blades without precurve, see
`inflow_radius_false`). -/
theorem rotor_dictionary_total (bq : RootFinder ℝ) (R : Rotor ℝ) (hn : 2 ≤ R.n) (hder : R.derivatives = true) (hit : R.iterRe = 1)
    (hinv : R.inv = none) (npts : ℕ) (co : Bool) (D : ℝ → RotorDesign) (V : RotorDesign) (t : ℝ)
    (hV : RotorDesign.HasDeriv R.n npts D V t) (o : ℝ → EvalOut ℝ)
    (hcall : ∀ᶠ s in 𝓝 t, (D s).call bq R npts co = .ok (o s)) (m : ℕ) (hm : m < npts)
    (hind : ∀ i < R.n, (R.af i).ReIndependent)
    (P : ℕ → ℕ → ℝ → ℝ) (hP : ∀ k < R.nSector, ∀ i < R.n, ContinuousAt (P k i) t)
    (hphi : ∀ k < R.nSector, ∀ i < R.n, ∀ᶠ s in 𝓝 t, ∀ L, ((D s).cond m (k * (360 / R.nSector))).call bq R = .ok L →
      ∃ st, L.stations[i]? = some st ∧ st.phi = P k i s)
    (hroot : ∀ k < R.nSector, ∀ i < R.n, ∀ᶠ s in 𝓝 t,
      (((D s).cond m (k * (360 / R.nSector))).sec R.n i (P k i s)).residual R (R.af i) = 0)
    (hsec : ∀ k < R.nSector, ∀ i < R.n, DictRegular R ((D t).cond m (k * (360 / R.nSector))) i (P k i t))
    (hreg : ((D t).blade (fun _ => 0) (fun _ => 0)).Regular R.n)
    (hr : (∀ j < R.n, V.r j = 0) ∨ ∀ j < R.n, (D t).precurve j = (D t).precurve 0) :
    ∀ f ∈ [fun x : CondOut ℝ => x.acc.T, fun x => x.acc.Y, fun x => x.acc.Z, fun x => x.acc.Q, fun x => x.acc.My,
        fun x => x.acc.Mz, fun x => x.acc.Mb, fun x => x.P],
      HasDerivAt (fun s => outputAt (o s) f m) (rotorApply R.n npts (outputDict R.n (o t) f) V m) t := by
  obtain ⟨L, hLe, hld⟩ := sector_dictionaries bq R hn hder hit hinv npts co D V t hV o hcall m hm hind P hP hphi hroot hsec hr
  have hrd := rotor_dictionary bq R hder npts co D V t hV o hcall m hm L hLe hld hreg
  have hpd := power_dictionary bq R npts co D V t hV o hcall m hm (hrd _ (by simp))
  intro f hf
  simp only [List.mem_cons, List.not_mem_nil, or_false] at hf
  rcases hf with rfl | rfl | rfl | rfl | rfl | rfl | rfl | rfl
  · exact hrd _ (by simp)
  · exact hrd _ (by simp)
  · exact hrd _ (by simp)
  · exact hrd _ (by simp)
  · exact hrd _ (by simp)
  · exact hrd _ (by simp)
  · exact hrd _ (by simp)
  · exact hpd

/-! ## A rotor meeting the hypotheses

Three stations, each with the chord for which the inflow angle is 45 degrees; wind and rotor speed grow in proportion. -/

/-- The chord at radius `r`. -/
noncomputable def fullChord (r : ℝ) : ℝ := 4 * Real.sqrt 2 * Real.pi * (8 - r) / 3

/-- The section at radius `r`. -/
noncomputable def fullSec (s r phi : ℝ) : SecIn := ⟨phi, fullChord r, 0, 8 * s, s * r, r, 1, 10, 0⟩

/-- The radii for which the momentum branch is used. -/
structure FullOk (s r : ℝ) : Prop where
  s : 0 < s
  lo : 5 < r
  hi : r < 8

section
variable {s r : ℝ}

theorem FullOk.chord (h : FullOk s r) : 0 < fullChord r := by
  have := h.hi
  have h8 : 0 < 8 - r := by linarith
  have := Real.pi_pos
  unfold fullChord
  positivity

theorem fullSec_ind (phi : ℝ) : (fullSec s r phi).ind dictRotor (reAirfoil 0) = ⟨r, fullChord r, 1, 10, phi, 1, 0, 8 * s, s * r⟩ := by
  simp only [SecIn.ind]
  simp [reAirfoil, fullSec]

theorem FullOk.kSpec (h : FullOk s r) (phi : ℝ) : kSpec ⟨false, false, false, false⟩ 3 r (fullChord r) 1 10 phi 1 0
    = Real.sqrt 2 / 2 * (8 / r - 1) * (Real.cos phi / Real.sin phi ^ 2) := by
  have hr : r ≠ 0 := by have := h.lo; linarith
  have hpi := Real.pi_ne_zero
  simp only [Verif.kSpec, lossSpec, cnSpec, Bool.false_eq_true, if_false, fullChord]
  simp only [div_eq_mul_inv, mul_inv]
  field_simp
  push_cast
  ring

theorem FullOk.k (h : FullOk s r) : Verif.kSpec ⟨false, false, false, false⟩ 3 r (fullChord r) 1 10 (Real.pi / 4) 1 0 = 8 / r - 1 := by
  rw [h.kSpec, Real.sin_pi_div_four, Real.cos_pi_div_four]
  have h2 : Real.sqrt 2 ^ 2 = 2 := Real.sq_sqrt (by norm_num)
  have h3 : Real.sqrt 2 / 2 * (8 / r - 1) * (Real.sqrt 2 / 2 / (Real.sqrt 2 / 2) ^ 2) = (8 / r - 1) * (Real.sqrt 2 ^ 2 / Real.sqrt 2 ^ 2) := by
    field_simp
  rw [h3, h2]
  norm_num

theorem FullOk.k_range (h : FullOk s r) : 0 < 8 / r - 1 ∧ 8 / r - 1 < 2 / 3 := by
  have h1 := h.lo
  have h2 := h.hi
  have hr : 0 < r := by linarith
  constructor
  · have : 1 < 8 / r := by rw [lt_div_iff₀ hr]; linarith
    linarith
  · have : 8 / r < 5 / 3 := by rw [div_lt_iff₀ hr]; linarith
    linarith

/-- The residual near the solution. -/
theorem FullOk.residual (h : FullOk s r) : ∀ᶠ phi in 𝓝 (Real.pi / 4), (fullSec s r phi).residual dictRotor (reAirfoil 0)
    = Real.sin phi + Real.sqrt 2 / 2 * (8 / r - 1) * (Real.cos phi / Real.sin phi) - 8 / r * Real.cos phi := by
  have hs := reOk.sin.ne'
  have hcont : ContinuousAt (fun phi => Real.sqrt 2 / 2 * (8 / r - 1) * (Real.cos phi / Real.sin phi ^ 2)) (Real.pi / 4) := by
    have : Real.sin (Real.pi / 4) ^ 2 ≠ 0 := by positivity
    fun_prop (disch := assumption)
  have hk := h.k
  rw [h.kSpec] at hk
  have hlt := hcont.eventually (eventually_lt_nhds (b := 2 / 3) (by beta_reduce; rw [hk]; exact h.k_range.2))
  have hgt := hcont.eventually (lt_mem_nhds (a := 0) (by beta_reduce; rw [hk]; exact h.k_range.1))
  have hr : r ≠ 0 := by have := h.lo; linarith
  have hs0 := h.s.ne'
  filter_upwards [reOk_near, hlt, hgt] with phi hp k1 k0
  rw [SecIn.residual_eq dictRotor rfl, fullSec_ind]
  obtain ⟨-, -, h3⟩ := indOut_eq r (fullChord r) 1 10 phi 1 0 3 (8 * s) (s * r) ⟨false, false, false, false⟩
  rw [h.kSpec, axial_momentum hp.pos k1.le] at h3
  simp only [IndIn.eval]
  refine h3.trans ?_
  simp only [bemResidual, hp.pos, if_true, Bool.false_eq_true, if_false]
  have e2 : ∀ k : ℝ, 0 < k → Real.sin phi / (1 - k / (1 + k)) = Real.sin phi * (1 + k) := by
    intro k hk
    have : 1 - k / (1 + k) = 1 / (1 + k) := by field_simp; ring
    rw [this]
    field_simp
  rw [e2 _ k0]
  have := hp.sin.ne'
  field_simp
  ring

theorem FullOk.root (h : FullOk s r) : (fullSec s r (Real.pi / 4)).residual dictRotor (reAirfoil 0) = 0 := by
  rw [h.residual.self_of_nhds, Real.sin_pi_div_four, Real.cos_pi_div_four, div_self (by positivity)]
  ring

theorem FullOk.loads_a (h : FullOk s r) : ((fullSec s r (Real.pi / 4)).loads dictRotor (reAirfoil 0)).a = 1 - r / 8 ∧
    ((fullSec s r (Real.pi / 4)).loads dictRotor (reAirfoil 0)).ap = 0 := by
  simp only [SecIn.loads, secValues, SecIn.runBEM_eq dictRotor rfl, if_true, fullSec_ind, IndIn.eval]
  obtain ⟨h1, h2, -⟩ := indOut_eq r (fullChord r) 1 10 (Real.pi / 4) 1 0 3 (8 * s) (s * r) ⟨false, false, false, false⟩
  rw [h.k, axial_momentum reOk.pos h.k_range.2.le] at h1
  refine ⟨h1.trans ?_, h2⟩
  have hr : r ≠ 0 := by have := h.lo; linarith
  have : 1 + (8 / r - 1) = 8 / r := by ring
  rw [this]
  field_simp

theorem FullOk.regular (h : FullOk s r) : LoadRegular dictRotor (reAirfoil 0) (fullSec s r (Real.pi / 4)) := by
  have hs := h.s
  have hr : 0 < r := by have := h.lo; linarith
  have hlo := h.lo
  have hhi := h.hi
  obtain ⟨e1, e2, e3, -, -, e6, e7, -⟩ := SecIn.loads_eq dictRotor rfl (reAirfoil 0) (fullSec s r (Real.pi / 4))
  have c1 : ((fullSec s r (Real.pi / 4)).loads dictRotor (reAirfoil 0)).cl = 1 := by rw [e1]; simp [reAirfoil]
  have c2 : ((fullSec s r (Real.pi / 4)).loads dictRotor (reAirfoil 0)).cd = 0 := by rw [e2]; simp [reAirfoil]
  have ha : |1 - r / 8| < 10 := by
    rw [abs_of_pos (by linarith)]; linarith
  refine ⟨⟨h.chord.ne', ?_, reAirfoil_diff _ _ _⟩, ?_, ?_, ?_, ?_⟩
  · rw [fullSec_ind]
    refine ⟨hr.ne', reOk.sin.ne', reOk.cos.ne', by simp [dictRotor, reRotor], by simp [dictRotor, reRotor],
      Or.inl ⟨reOk.pos, ?_, ?_⟩, by simp [dictRotor, reRotor], (by positivity : (8 * s : ℝ) ≠ 0), (by positivity : (s * r : ℝ) ≠ 0)⟩
    · exact h.k.trans_lt h.k_range.2
    · intro h1
      have := h.k.symm.trans h1
      have := h.k_range.1
      linarith
  · right; right
    simp only [SecIn.rel, h.loads_a.1, h.loads_a.2]
    refine ⟨ha, by simp, Or.inr ?_⟩
    simp only [fullSec]
    positivity
  · rw [e3]
    simp only [SecIn.rel, RelIn.eval, relativeWind, h.loads_a.1, h.loads_a.2]
    have := relSpeed_pos (fullSec s r (Real.pi / 4)).phi (1 - r / 8) (fullSec s r (Real.pi / 4)).Vx (fullSec s r (Real.pi / 4)).Vy
      reOk.cos.ne' (by simp only [fullSec]; positivity)
    intro h0
    rw [h0] at this
    norm_num at this
  · rw [e6, c1, c2]
    simp [fullSec]
  · rw [e7, c1, c2]
    simp [fullSec]

theorem FullOk.dR0 (h : FullOk s r) : ((fullSec s r (Real.pi / 4)).derivs dictRotor (reAirfoil 0)).dR 0 ≠ 0 := by
  have hY : SecIn.HasDeriv (fun phi => fullSec s r phi) ⟨1, 0, 0, 0, 0, 0, 0, 0, 0⟩ (Real.pi / 4) :=
    ⟨hasDerivAt_id _, hasDerivAt_const _ _, hasDerivAt_const _ _, hasDerivAt_const _ _, hasDerivAt_const _ _,
      hasDerivAt_const _ _, hasDerivAt_const _ _, hasDerivAt_const _ _, hasDerivAt_const _ _⟩
  obtain ⟨h1, -, -⟩ := residualDerivatives_correct dictRotor rfl (reAirfoil 0) _ _ _ hY h.regular.toSecRegular
  have hs := reOk.sin.ne'
  have hder := ((Real.hasDerivAt_sin (Real.pi / 4)).add
    (((Real.hasDerivAt_cos (Real.pi / 4)).div (Real.hasDerivAt_sin (Real.pi / 4)) hs).const_mul (Real.sqrt 2 / 2 * (8 / r - 1)))).sub
      ((Real.hasDerivAt_cos (Real.pi / 4)).const_mul (8 / r))
  have hu := h1.unique (hder.congr_of_eventuallyEq h.residual)
  simp only [Finset.sum_range_succ, Finset.sum_range_zero, SecIn.get, zero_mul, add_zero, zero_add, one_mul] at hu
  intro h0
  have h0' : (residualDerivatives ((fullSec s r (Real.pi / 4)).rotor dictRotor) (fullSec s r (Real.pi / 4)).pitch
    (fullSec s r (Real.pi / 4)).phi ((fullSec s r (Real.pi / 4)).sec (reAirfoil 0)) 0).fzerod = 0 := h0
  rw [h0', Real.sin_pi_div_four, Real.cos_pi_div_four] at hu
  have hk := h.k_range
  have h2 : Real.sqrt 2 ^ 2 = 2 := Real.sq_sqrt (by norm_num)
  have h2p : 0 < Real.sqrt 2 := by positivity
  have e : Real.sqrt 2 / 2 + Real.sqrt 2 / 2 * (8 / r - 1)
      * ((-(Real.sqrt 2 / 2) * (Real.sqrt 2 / 2) - Real.sqrt 2 / 2 * (Real.sqrt 2 / 2)) / (Real.sqrt 2 / 2) ^ 2)
      - 8 / r * -(Real.sqrt 2 / 2) = Real.sqrt 2 / 2 * (2 - (8 / r - 1)) := by
    have : (-(Real.sqrt 2 / 2) * (Real.sqrt 2 / 2) - Real.sqrt 2 / 2 * (Real.sqrt 2 / 2)) / (Real.sqrt 2 / 2) ^ 2 = -2 := by
      field_simp
      ring
    rw [this]
    ring
  rw [e] at hu
  have : 0 < Real.sqrt 2 / 2 * (2 - (8 / r - 1)) := mul_pos (by positivity) (by linarith)
  linarith

end

noncomputable def fullCurve (s : ℝ) : RotorDesign where
  r j := 6 + j / 2
  chord j := fullChord (6 + j / 2)
  theta _ := 0
  precurve _ := 0
  presweep _ := 0
  Rhub := 1
  Rtip := 10
  precone := 0
  tilt := 0
  hubHt := 100
  yaw := 0
  shear := 0
  precurveTip := 0
  presweepTip := 0
  Uinf _ := 8 * s
  Omega _ := 30 / Real.pi * s
  pitch _ := 0

noncomputable def fullVel : RotorDesign where
  r _ := 0
  chord _ := 0
  theta _ := 0
  precurve _ := 0
  presweep _ := 0
  Rhub := 0
  Rtip := 0
  precone := 0
  tilt := 0
  hubHt := 0
  yaw := 0
  shear := 0
  precurveTip := 0
  presweepTip := 0
  Uinf _ := 8
  Omega _ := 30 / Real.pi
  pitch _ := 0

theorem fullCurve_deriv (npts : ℕ) (t : ℝ) : RotorDesign.HasDeriv 3 npts fullCurve fullVel t := by
  have h4 : HasDerivAt (fun s : ℝ => 8 * s) 8 t := by simpa using (hasDerivAt_id t).const_mul 8
  have hO : HasDerivAt (fun s : ℝ => 30 / Real.pi * s) (30 / Real.pi) t := by
    simpa using (hasDerivAt_id t).const_mul (30 / Real.pi)
  refine ⟨fun m _ az => ?_, hasDerivAt_const _ _, hasDerivAt_const _ _⟩
  constructor <;> first | exact h4 | exact hO | exact hasDerivAt_const _ _ | exact fun j _ => hasDerivAt_const _ _

theorem fullCurve_ok {s : ℝ} (hs : 0 < s) {i : ℕ} (hi : i < 3) : FullOk s (6 + i / 2) := by
  have : (i : ℝ) ≤ 2 := by exact_mod_cast (by omega : i ≤ 2)
  have : (0 : ℝ) ≤ i := Nat.cast_nonneg i
  exact ⟨hs, by linarith, by linarith⟩

theorem fullCurve_wind (s : ℝ) (m : ℕ) (az : ℝ) (i : ℕ) (hi : i < 3) : ((fullCurve s).cond m az).wind.eval 3 (fullCurve s).r
    (fullCurve s).precurve (fullCurve s).presweep i = (8 * s, s * (6 + i / 2)) := by
  have hc : (defineCurvature 3 (fullCurve s).r (fullCurve s).precurve (fullCurve s).presweep 0).cone i = 0 := by
    refine cone_of_straight_blade 3 (by norm_num) _ _ _ _ ⟨by linarith [Real.pi_pos], Real.pi_pos.le⟩ ?_ ?_ i hi
    · intro j _; simp only [fullCurve]; push_cast; linarith
    · intro j _; rfl
  have hpi := Real.pi_ne_zero
  have e0 : ((fullCurve s).cond m az).wind.precone = 0 := by simp [fullCurve, RotorDesign.cond, Design.wind]
  have e1 : ((fullCurve s).cond m az).wind.yaw = 0 := by simp [fullCurve, RotorDesign.cond, Design.wind]
  have e2 : ((fullCurve s).cond m az).wind.tilt = 0 := by simp [fullCurve, RotorDesign.cond, Design.wind]
  have e3 : ((fullCurve s).cond m az).wind.shearExp = 0 := by simp [fullCurve, RotorDesign.cond, Design.wind]
  unfold WindIn.eval windComponents
  simp only [e0, e1, e2, e3, hc, num_real]
  simp [defineCurvature, xAz, zAz, yAz, fullCurve, shearedWind, Design.wind, RotorDesign.cond, num_real]
  field_simp
  simp

theorem fullCurve_sec (s : ℝ) (m : ℕ) (az : ℝ) (i : ℕ) (hi : i < 3) (phi : ℝ) :
    ((fullCurve s).cond m az).sec 3 i phi = fullSec s (6 + i / 2) phi := by
  simp only [Design.sec]
  rw [show ((fullCurve s).cond m az).r = (fullCurve s).r from rfl, show ((fullCurve s).cond m az).precurve = (fullCurve s).precurve from rfl,
    show ((fullCurve s).cond m az).presweep = (fullCurve s).presweep from rfl, fullCurve_wind s m az i hi]
  simp [RotorDesign.cond, fullCurve, fullSec]

theorem fullCurve_Omega {s : ℝ} (hs : 0 < s) (m : ℕ) : 0 < (fullCurve s).Omega m := by
  have := Real.pi_pos
  simp only [fullCurve]
  positivity

/-- The loads of every sector are computed, with the inflow angle 45 degrees. -/
theorem fullCurve_station {s : ℝ} (hs : 0 < s) (m : ℕ) (az : ℝ) (i : ℕ) (hi : i < 3) :
    ∃ st, solveStation dictBq (((fullCurve s).cond m az).rotor dictRotor) (deg2rad 0) ((fullCurve s).Omega m)
      (rotorWind (((fullCurve s).cond m az).rotor dictRotor) ((fullCurve s).Uinf m) ((fullCurve s).Omega m) (deg2rad az)) i = .ok st ∧
      st.phi = Real.pi / 4 := by
  have hok := fullCurve_ok hs hi
  have hO' : ((fullCurve s).Omega m == 0) = false := by
    have := (fullCurve_Omega hs m).ne'
    simp [num_real, this]
  have hw : rotorWind (((fullCurve s).cond m az).rotor dictRotor) ((fullCurve s).Uinf m) ((fullCurve s).Omega m) (deg2rad az)
    = _ := Design.wind_eq (R := dictRotor) (D := (fullCurve s).cond m az)
  rw [hw]
  set W := ((fullCurve s).cond m az).wind.eval dictRotor.n ((fullCurve s).cond m az).r ((fullCurve s).cond m az).precurve
    ((fullCurve s).cond m az).presweep with hW
  have hphi : stationPhi dictBq (((fullCurve s).cond m az).rotor dictRotor) (deg2rad 0) ((fullCurve s).Omega m) W i
      = .ok (Real.pi / 4, false) := by
    simp only [stationPhi, hO', Bool.false_eq_true, if_false]
    rw [if_neg (by simp [Design.rotor, dictRotor, reRotor, demoRotor])]
    rfl
  have hx : stationSec (((fullCurve s).cond m az).rotor dictRotor) W i
      (stationTheta (((fullCurve s).cond m az).rotor dictRotor) (deg2rad 0) (Real.pi / 4) i)
      = (fullSec s (6 + i / 2) (Real.pi / 4)).sec (reAirfoil 0) := by
    rw [← fullCurve_sec s m az i hi]
    rfl
  set x := fullSec s (6 + i / 2) (Real.pi / 4) with hxd
  have hl := hok.regular
  have hsec : secLoads (((fullCurve s).cond m az).rotor dictRotor) (deg2rad 0) (Real.pi / 4) true (x.sec (reAirfoil 0))
      = .ok (x.loads dictRotor (reAirfoil 0), x.derivs dictRotor (reAirfoil 0)) := by
    have hp : deg2rad (0 : ℝ) = x.pitch := by simp [num_real, hxd, fullSec]
    have w1 : (x.sec (reAirfoil 0)).Vx ≠ 0 := hl.ind.Vx
    have w2 : (x.sec (reAirfoil 0)).Vy ≠ 0 := hl.ind.Vy
    rw [(Design.sameCore (R := dictRotor) (i := i) (phi := Real.pi / 4)).secLoads, hp]
    have hrot : (((fullCurve s).cond m az).sec dictRotor.n i (Real.pi / 4)).rotor dictRotor = x.rotor dictRotor := by
      rw [show dictRotor.n = 3 from rfl, fullCurve_sec s m az i hi]
    rw [hrot]
    unfold secLoads
    rw [if_pos (by simp [num_real, w1, w2])]
    rw [if_neg]
    · rfl
    · intro h
      simp only [num_real, Bool.and_eq_true, Bool.or_eq_true, decide_eq_true_eq] at h
      rcases h.2 with (h | h) | h
      · exact hl.cn h
      · exact hl.W h
      · exact hl.chord h
  unfold solveStation
  simp only [hphi, hx, hO', Bool.not_false, hsec, real_isNaN, Bool.false_and, Bool.false_eq_true, if_false]
  exact ⟨_, rfl, rfl⟩

theorem fullCurve_loads {s : ℝ} (hs : 0 < s) (m : ℕ) (az : ℝ) : ∃ L, ((fullCurve s).cond m az).call dictBq dictRotor = .ok L := by
  obtain ⟨l, hl⟩ := solveStations_of_all (k := 3) fun i hi => (fullCurve_station hs m az i hi).imp fun _ h => h.1
  obtain ⟨L, hL, -⟩ := distributedAeroLoads_of_stations (R := ((fullCurve s).cond m az).rotor dictRotor) (pitch := 0) (az := az) hl
  exact ⟨L, hL⟩

theorem fullCurve_phi {s : ℝ} (hs : 0 < s) (m : ℕ) (az : ℝ) (L : LoadsOut ℝ) (h : ((fullCurve s).cond m az).call dictBq dictRotor = .ok L)
    (i : ℕ) (hi : i < 3) : ∃ st, L.stations[i]? = some st ∧ st.phi = Real.pi / 4 := by
  obtain ⟨-, l2⟩ := solveStations_ok (distributedAeroLoads_stations (Prod.ext rfl h))
  obtain ⟨st, e1, e2⟩ := l2 i hi
  obtain ⟨st', e3, e4⟩ := fullCurve_station hs m az i hi
  obtain rfl : st = st' := Except.ok.inj (e2.symm.trans e3)
  exact ⟨st, e1, e4⟩

theorem fullCurve_call {s : ℝ} (hs : 0 < s) : ∃ o, (fullCurve s).call dictBq dictRotor 2 true = .ok o := by
  refine evaluate_conditions_ok _ _ _ _ (by simp [RotorDesign.conds]) fun c hc => ?_
  obtain ⟨m, -, rfl⟩ := List.mem_map.mp hc
  obtain ⟨acc, h⟩ := (condAcc_ok_iff dictBq ((fullCurve s).rotor dictRotor)
    ⟨(fullCurve s).Uinf m, (fullCurve s).Omega m, (fullCurve s).pitch m⟩).mpr fun k hk => by
      obtain ⟨L, hL⟩ := fullCurve_loads hs m (k * (360 / ((fullCurve s).rotor dictRotor).nSector))
      exact ⟨L, by rw [RotorDesign.loads_eq]; exact hL⟩
  obtain ⟨W, hW⟩ := Option.isSome_iff_exists.mp ((condAcc_W h).mpr (by simp [RotorDesign.rotor, dictRotor, reRotor, demoRotor]))
  exact ⟨⟨_, W⟩, (evaluate_single _ _ _ _ _).mpr ⟨acc, h, hW, rfl⟩⟩

theorem fullCurve_dictRegular (m i : ℕ) (hi : i < 3) :
    DictRegular dictRotor ((fullCurve 1).cond m ((0 : ℕ) * (360 / dictRotor.nSector))) i (Real.pi / 4) := by
  have hx := fullCurve_sec 1 m ((0 : ℕ) * (360 / dictRotor.nSector)) i hi (Real.pi / 4)
  have hok := fullCurve_ok one_pos hi
  refine ⟨?_, by norm_num [fullCurve, RotorDesign.cond], ?_, (fullCurve_Omega one_pos m).ne', ?_, reAirfoil_diff _ _ _, ?_⟩
  · intro j _
    left
    simp only [RotorDesign.cond, fullCurve]
    push_cast
    norm_num
    linarith
  · have : (0 : ℝ) ≤ i := Nat.cast_nonneg i
    simp [relHeight, Design.wind, fullCurve, RotorDesign.cond]
    linarith
  · rw [show dictRotor.n = 3 from rfl, hx]
    exact hok.regular
  · rw [show dictRotor.n = 3 from rfl, hx]
    exact hok.dR0

theorem fullCurve_regular : ((fullCurve 1).blade (fun _ => 0) (fun _ => 0)).Regular 3 := by
  constructor
  · intro j hj
    have hj : j < 4 := by omega
    left
    interval_cases j <;> simp [padded, RotorDesign.blade, fullCurve] <;> norm_num
  · intro j hj
    have hj : j < 4 := by omega
    interval_cases j <;> simp [padded, RotorDesign.blade, fullCurve] <;> norm_num

/-- The hypotheses of `rotor_dictionary_total` are met: the torque of the second condition. -/
example : ∃ o : ℝ → EvalOut ℝ, (∀ᶠ s in 𝓝 (1 : ℝ), (fullCurve s).call dictBq dictRotor 2 true = .ok (o s)) ∧
    HasDerivAt (fun s => outputAt (o s) (fun x => x.acc.Q) 1) (rotorApply 3 2 (outputDict 3 (o 1) fun x => x.acc.Q) fullVel 1) 1 := by
  have hex : ∀ s, ∃ o, 0 < s → (fullCurve s).call dictBq dictRotor 2 true = .ok o := fun s => by
    by_cases hs : 0 < s
    · obtain ⟨o, ho⟩ := fullCurve_call hs
      exact ⟨o, fun _ => ho⟩
    · exact ⟨⟨[], fun _ => 0⟩, fun h => absurd h hs⟩
  choose o ho using hex
  have hpos : ∀ᶠ s in 𝓝 (1 : ℝ), 0 < s := lt_mem_nhds one_pos
  refine ⟨o, hpos.mono ho, ?_⟩
  refine rotor_dictionary_total dictBq dictRotor (by norm_num [dictRotor, reRotor, demoRotor]) rfl rfl rfl 2 true fullCurve fullVel 1
    (fullCurve_deriv 2 1) o (hpos.mono ho) 1 (by norm_num) (fun i _ _ _ _ => by simp [dictRotor, reAirfoil]) (fun _ _ _ => Real.pi / 4)
    (fun _ _ _ _ => continuousAt_const) (fun k _ i hi => hpos.mono fun s hs L hL => fullCurve_phi hs 1 _ L hL i hi)
    (fun k _ i hi => hpos.mono fun s hs => ?_) (fun k hk i hi => ?_) ?_ (Or.inr fun _ _ => rfl) _ (by simp)
  · rw [show dictRotor.n = 3 from rfl, fullCurve_sec s 1 _ i hi]
    exact (fullCurve_ok hs hi).root
  · obtain rfl : k = 0 := by have : dictRotor.nSector = 1 := rfl; omega
    exact fullCurve_dictRegular 1 i hi
  · exact fullCurve_regular

end Verif
