import Verif.Props.Refine
import Verif.Props.AttachedContinuity

/-! # C119, continued: in attached flow the results converge without further assumptions on the section loads than bounds -/

open Real Filter Topology

namespace Verif

/-! ## Specification -/

/-- Chord, twist and coefficients vary continuously along the blade, and with angle of attack and Reynolds number; the airfoils may change along it. -/
structure BladeShape.ContinuousShape (b : BladeShape) (Rhub Rtip : ℝ) : Prop where
  chord : ContinuousOn b.chord (Set.Ioo Rhub Rtip)
  theta : ContinuousOn b.theta (Set.Ioo Rhub Rtip)
  af : ContinuousOn (fun x : ℝ × ℝ × ℝ => (b.af x.1).evaluate x.2.1 x.2.2) (Set.Ioo Rhub Rtip ×ˢ Set.univ)

/-- At azimuth `az` the blade is above the ground; however it is divided, the analysis succeeds, every station is in attached flow and solved with lift. -/
structure AttachedBlade (bq : RootFinder ℝ) (R : Rotor ℝ) (b : BladeShape) (c : Cond ℝ) (az : ℝ) : Prop where
  above : ∀ x ∈ Set.Ioo R.Rhub R.Rtip, 0 < relHeight (fun _ => x) (fun _ => 0) (fun _ => 0)
    ⟨R.precone, R.yaw, R.tilt, az * (π / 180), 0, 0, R.hubHt, R.shearExp⟩ 0
  flow : ∀ d n r, StationMesh R.Rhub R.Rtip d n r → ∃ L, (distributedAeroLoads bq (R.sampled b n r) c.Uinf c.Omega c.pitch az).2 = .ok L ∧
    ∀ (i : ℕ) (s : Station ℝ), L.stations[i]? = some s →
      AttachedStation (R.sampled b n r) c.Uinf c.Omega c.pitch az i ∧ SolvedWithLift (R.sampled b n r) c.Uinf c.Omega c.pitch az i s

/-! ## The blade -/

section
variable {bq : RootFinder ℝ} {R : Rotor ℝ} {b : BladeShape} {c : Cond ℝ} {az : ℝ}

/-- Two stations, the first at the radius `x`. -/
noncomputable def twoStations (Rtip x : ℝ) : ℕ → ℝ := fun i => if i = 0 then x else (x + Rtip) / 2

theorem twoStations_mesh {Rhub Rtip x : ℝ} (hx : x ∈ Set.Ioo Rhub Rtip) : StationMesh Rhub Rtip (Rtip - Rhub) 2 (twoStations Rtip x) := by
  obtain ⟨h1, h2⟩ := hx
  refine ⟨le_rfl, ?_, fun i hi => ?_, ?_, ?_, fun i hi => ?_, ?_⟩
  · simpa [twoStations] using h1
  · obtain rfl : i = 0 := by omega
    simp only [twoStations, if_true, zero_add, one_ne_zero, if_false]
    linarith
  · simp only [twoStations, show 2 - 1 = 1 from rfl, one_ne_zero, if_false]
    linarith
  · simp only [twoStations, if_true]
    linarith
  · obtain rfl : i = 0 := by omega
    simp only [twoStations, if_true, zero_add, one_ne_zero, if_false]
    linarith
  · simp only [twoStations, show 2 - 1 = 1 from rfl, one_ne_zero, if_false]
    linarith

/-- The inflow of the first station varies continuously with its radius. -/
theorem twoStations_wind {U O : ℝ} (hcone : |R.precone| < π / 2) (x0 : Set.Ioo R.Rhub R.Rtip)
    (hz : 0 < relHeight (fun _ => (x0 : ℝ)) (fun _ => 0) (fun _ => 0) ⟨R.precone, R.yaw, R.tilt, az, 0, 0, R.hubHt, R.shearExp⟩ 0) :
    Tendsto (fun x : Set.Ioo R.Rhub R.Rtip => rotorWind (R.sampled b 2 (twoStations R.Rtip x)) U O az 0) (𝓝 x0)
      (𝓝 (rotorWind (R.sampled b 2 (twoStations R.Rtip x0)) U O az 0)) := by
  have hcone' := fun x : Set.Ioo R.Rhub R.Rtip => sampled_cone hcone (twoStations_mesh x.2) (i := 0) (by norm_num)
  have e := relHeight_eq (fun _ => (x0 : ℝ)) (fun _ => 0) (fun _ => 0) ⟨R.precone, R.yaw, R.tilt, az, 0, 0, R.hubHt, R.shearExp⟩ 0
  rw [← e] at hz
  have tx : Tendsto (fun x : Set.Ioo R.Rhub R.Rtip => (x : ℝ)) (𝓝 x0) (𝓝 (x0 : ℝ)) := continuous_subtype_val.tendsto x0
  have h0 : ∀ x : ℝ, twoStations R.Rtip x 0 = x := fun x => by simp [twoStations]
  simp only [rotorWind, windComponents, Rotor.sampled, hcone']
  simp only [defineCurvature, xAz, yAz, zAz, h0, num_real]
  simp only [xAz, yAz, zAz, num_real] at hz
  have th : Tendsto (fun x : Set.Ioo R.Rhub R.Rtip => heightFromHub (-(x : ℝ) * sin R.precone + 0 * cos R.precone) 0
        ((x : ℝ) * cos R.precone + 0 * sin R.precone) R.tilt az) (𝓝 x0)
      (𝓝 (heightFromHub (-(x0 : ℝ) * sin R.precone + 0 * cos R.precone) 0 ((x0 : ℝ) * cos R.precone + 0 * sin R.precone) R.tilt az)) := by
    simp only [heightFromHub, num_real]
    exact Continuous.tendsto (by fun_prop) x0
  have tV := ((((th.div_const R.hubHt).const_add 1).rpow_const (p := R.shearExp) (.inl hz.ne')).const_mul U)
  refine Tendsto.prodMk_nhds ?_ ?_
  · simp only [shearedWind, num_real]
    exact (tV.mul_const _).add (Continuous.tendsto (by fun_prop) x0)
  · simp only [shearedWind, num_real]
    exact (tV.mul_const _).add (Continuous.tendsto (by fun_prop) x0)

/-- **C119** In attached flow the section loads vary continuously between hub and tip: there is one normal and one tangential force per radius, whatever
the stations, and both are continuous. -/
theorem attached_along (hbq : ExactRoots bq) (hinv : R.inv = none) (hcone : |R.precone| < π / 2) (hO : c.Omega ≠ 0) (hmu : R.mu ≠ 0)
    (hre : R.iterRe = 1 ∨ ∀ x, (b.af x).ReIndependent) (hb : b.ContinuousShape R.Rhub R.Rtip) (A : AttachedBlade bq R b c az) :
    ∃ N T, LoadAlong bq R b c.Uinf c.Omega c.pitch az SecLoads.Np N ∧ LoadAlong bq R b c.Uinf c.Omega c.pitch az SecLoads.Tp T ∧
      ContinuousOn N (Set.Ioo R.Rhub R.Rtip) ∧ ContinuousOn T (Set.Ioo R.Rhub R.Rtip) := by
  obtain ⟨S, hS⟩ := station_along (b := b) bq hinv hcone c.Uinf c.Omega c.pitch az
  choose L hL hst using fun x : Set.Ioo R.Rhub R.Rtip => A.flow _ _ _ (twoStations_mesh x.2)
  have hd := fun x : Set.Ioo R.Rhub R.Rtip => (Prod.ext rfl (hL x) : distributedAeroLoads bq (R.sampled b 2 (twoStations R.Rtip x)) c.Uinf c.Omega c.pitch az = (_, .ok (L x)))
  have h0 : ∀ x : ℝ, twoStations R.Rtip x 0 = x := fun x => by simp [twoStations]
  have hs : ∀ x : Set.Ioo R.Rhub R.Rtip, (L x).stations[0]? = some (S x) := by
    intro x
    have hlen : 0 < (L x).stations.length := by rw [(solveStations_ok (distributedAeroLoads_stations (hd x))).1]; exact Nat.zero_lt_two
    have e := List.getElem?_eq_getElem hlen
    have := hS _ _ _ (twoStations_mesh x.2) _ (hL x) 0 _ e
    rw [h0] at this
    rw [e, this]
  have fre : ∀ x : ℝ, FixedRe (R.sampled b 2 (twoStations R.Rtip x)) 0 := fun x => hre.imp id fun h => h _
  have key : ∀ x0 : Set.Ioo R.Rhub R.Rtip, Tendsto (fun x : Set.Ioo R.Rhub R.Rtip => (S x).loads.Np) (𝓝 x0) (𝓝 (S x0).loads.Np) ∧
      Tendsto (fun x : Set.Ioo R.Rhub R.Rtip => (S x).loads.Tp) (𝓝 x0) (𝓝 (S x0).loads.Tp) := by
    intro x0
    have tx : Tendsto (fun x : Set.Ioo R.Rhub R.Rtip => (x : ℝ)) (𝓝 x0) (𝓝 (x0 : ℝ)) := continuous_subtype_val.tendsto x0
    have nx := isOpen_Ioo.mem_nhds x0.2
    have tends : StationTends (𝓝 x0) (fun x : Set.Ioo R.Rhub R.Rtip => R.sampled b 2 (twoStations R.Rtip x)) (R.sampled b 2 (twoStations R.Rtip x0)) 0 := by
      refine ⟨fun _ => rfl, fun _ => rfl, fun u v p q hu hv => ?_, ?_, ?_, ?_, tendsto_const_nhds, tendsto_const_nhds, tendsto_const_nhds, tendsto_const_nhds⟩
      · simp only [Rotor.sampled, h0]
        have hm : Set.Ioo R.Rhub R.Rtip ×ˢ (Set.univ : Set (ℝ × ℝ)) ∈ 𝓝 ((x0 : ℝ), p, q) := prod_mem_nhds nx univ_mem
        exact (hb.af.continuousAt hm).tendsto.comp (tx.prodMk_nhds (hu.prodMk_nhds hv))
      · simp only [Rotor.sampled, h0]
        exact tx
      · simp only [Rotor.sampled, h0]
        exact (hb.chord.continuousAt nx).tendsto.comp tx
      · simp only [Rotor.sampled, h0]
        exact (hb.theta.continuousAt nx).tendsto.comp tx
    have t := attached_station_limit hbq tends hmu (fun _ => hinv) hinv (fun x => fre x) (fre x0) tendsto_const_nhds hd (hd x0) (fun x => S x) (S x0) hs
      (hs x0) (fun _ => hO) hO (fun x => (hst x 0 _ (hs x)).1) (hst x0 0 _ (hs x0)).1 (fun x => (hst x 0 _ (hs x)).2) (hst x0 0 _ (hs x0)).2
      (twoStations_wind hcone x0 (A.above x0 x0.2))
    exact ⟨t.2.2.2.1, t.2.2.2.2⟩
  refine ⟨fun x => (S x).loads.Np, fun x => (S x).loads.Tp, fun d n r M L' hL' i s h => ?_, fun d n r M L' hL' i s h => ?_, ?_, ?_⟩
  · rw [hS d n r M L' hL' i s h]
  · rw [hS d n r M L' hL' i s h]
  · rw [continuousOn_iff_continuous_domRestrict, continuous_iff_continuousAt]
    exact fun x0 => (key x0).1
  · rw [continuousOn_iff_continuous_domRestrict, continuous_iff_continuousAt]
    exact fun x0 => (key x0).2

/-- **C119** A straight coned blade in attached flow, whose chord, twist and airfoil vary continuously along it and whose section loads are bounded: thrust,
blade root moment, torque and power converge to the integrals of the section loads as the stations get denser, for every choice of the stations. -/
theorem evaluate_refine_attached (hbq : ExactRoots bq) (hinv : R.inv = none) (hhub : 0 < R.Rhub) (hcone : |R.precone| < π / 2) (hO : c.Omega ≠ 0)
    (hmu : R.mu ≠ 0) (hre : R.iterRe = 1 ∨ ∀ x, (b.af x).ReIndependent) (hb : b.ContinuousShape R.Rhub R.Rtip)
    (A : ∀ k < R.nSector, AttachedBlade bq R b c (k * (360 / R.nSector))) {D : ℝ}
    (hD : ∀ k < R.nSector, ∀ d n r, StationMesh R.Rhub R.Rtip d n r → ∀ L,
      (distributedAeroLoads bq (R.sampled b n r) c.Uinf c.Omega c.pitch (k * (360 / R.nSector))).2 = .ok L →
        ∀ (i : ℕ) (s : Station ℝ), L.stations[i]? = some s → |s.loads.Np| ≤ D ∧ |s.loads.Tp| ≤ D) :
    ∃ N T : ℕ → ℝ → ℝ, (∀ k < R.nSector, LoadAlong bq R b c.Uinf c.Omega c.pitch (k * (360 / R.nSector)) SecLoads.Np (N k)) ∧
      (∀ k < R.nSector, LoadAlong bq R b c.Uinf c.Omega c.pitch (k * (360 / R.nSector)) SecLoads.Tp (T k)) ∧ ∀ ε > 0,
      ∃ δ > 0, ∀ n r, StationMesh R.Rhub R.Rtip δ n r → ∀ (cs : List (Cond ℝ)) (co : Bool) (o : EvalOut ℝ) (m : ℕ) (x : CondOut ℝ),
        (evaluate bq (R.sampled b n r) cs co).2 = .ok o → cs[m]? = some c → o.conds[m]? = some x →
        |x.acc.T.val - trueThrust R N| ≤ ε ∧ |x.acc.Mb.val - trueMoment R N| ≤ ε ∧ |x.acc.Q.val - trueTorque R T| ≤ ε ∧
          |x.P.val - trueTorque R T * (c.Omega * (π / 30))| ≤ ε := by
  choose! N T hN hT cN cT using fun k (hk : k < R.nSector) => attached_along hbq hinv hcone hO hmu hre hb (A k hk)
  have bound : ∀ k < R.nSector, ∀ x ∈ Set.Ioo R.Rhub R.Rtip, |N k x| ≤ D ∧ |T k x| ≤ D := by
    intro k hk x hx
    obtain ⟨L, hL, -⟩ := (A k hk).flow _ _ _ (twoStations_mesh hx)
    have hd := (Prod.ext rfl hL : distributedAeroLoads bq (R.sampled b 2 (twoStations R.Rtip x)) c.Uinf c.Omega c.pitch (k * (360 / R.nSector))
      = (_, .ok L))
    have hlen : 0 < L.stations.length := by rw [(solveStations_ok (distributedAeroLoads_stations hd)).1]; exact Nat.zero_lt_two
    have e := List.getElem?_eq_getElem hlen
    have hn := hN k hk _ _ _ (twoStations_mesh hx) L hL 0 _ e
    have ht := hT k hk _ _ _ (twoStations_mesh hx) L hL 0 _ e
    have h0 : twoStations R.Rtip x 0 = x := by simp [twoStations]
    rw [h0] at hn ht
    rw [← hn, ← ht]
    exact hD k hk _ _ _ (twoStations_mesh hx) L hL 0 _ e
  exact ⟨N, T, hN, hT, fun ε hε => evaluate_refine hhub hcone hN hT cN cT (fun k hk x hx => (bound k hk x hx).1) (fun k hk x hx => (bound k hk x hx).2) ε hε⟩

end

/-- Forces that hold back the wind slow it down. -/
theorem axialInduction_nonneg {phi F k : ℝ} (hphi : 0 < phi) (hF : 0 < F) (hk : 0 ≤ k) (hreg : RegularK F k) :
    0 ≤ axialInduction phi k F := by
  rcases le_or_gt k (2 / 3) with h | h
  · rw [axial_momentum hphi h]
    positivity
  · have h3 : 1 / 1000000 ≤ |buhlG3 F k| := by
      rw [buhlG3_real]
      exact hreg.2 h
    rw [axial_buhl hphi hF h h3]
    have hw := lt_sqrt_buhlG2 hF h
    rw [sub_nonneg, div_le_one (by linarith)]
    linarith

/-- Bounds of the loads of a station in attached flow, with drag in the residual: the momentum theory limits thrust and driving force, and a braking force
is due to the drag in at most the undisturbed flow. -/
theorem attached_load_bounds {bq : RootFinder ℝ} (hbq : ExactRoots bq) {R R' : Rotor ℝ} {Uinf Omega pitch az : ℝ} {L : LoadsOut ℝ} (hinv : R.inv = none)
    (hO : Omega ≠ 0) (h : distributedAeroLoads bq R Uinf Omega pitch az = (R', .ok L)) {i : ℕ} {s : Station ℝ} (hs : L.stations[i]? = some s)
    (hre : FixedRe R i) (ho : R.opts.useCd = true) (hrho : 0 ≤ R.rho) (hcd : ∀ alpha Re, 0 ≤ ((R.af i).evaluate alpha Re).2)
    (hatt : AttachedStation R Uinf Omega pitch az i) (hsol : SolvedWithLift R Uinf Omega pitch az i s) {Vx Vy : ℝ}
    (hV : rotorWind R Uinf Omega (az * (π / 180)) i = (Vx, Vy)) :
    0 ≤ s.loads.Np ∧ R.B * s.loads.Np ≤ R.rho * Vx ^ 2 * (2 * π * R.r i) ∧ R.B * s.loads.Tp * Vy ≤ 16 / 27 * (R.rho * Vx ^ 3 / 2 * (2 * π * R.r i)) ∧
      -(R.rho * (Vx ^ 2 + Vy ^ 2) / 2 * R.chord i * s.loads.cd) ≤ s.loads.Tp := by
  have hpi := pi_pos
  have hVx : 0 < Vx := by have := hatt.front; rwa [hV] at this
  have hVy : 0 < Vy := by have := hatt.sense; rwa [hV] at this
  have hB := hatt.blades
  have hBr : (0 : ℝ) < R.B := by exact_mod_cast hB
  have hr : 0 < R.r i := hatt.hub.trans hatt.inner
  have hch := hatt.chord
  have hphi := hsol.angle
  have hsp : 0 < sin s.phi := sin_pos_of_pos_of_lt_pi hphi.1 (by linarith [hphi.2])
  have hcp : 0 < cos s.phi := cos_pos_of_mem_Ioo ⟨by linarith [hphi.1], hphi.2⟩
  obtain ⟨b1, b2⟩ := loads_betz bq R R' Uinf Omega pitch az L h i s hs hinv hO hB hatt.hub hatt.inner hatt.outer hch hrho hcd Vx Vy hV hVx hVy
    (converged_of_exact hbq h hO hs hsol.solved (.inl hphi.2.le))
  obtain ⟨a1, a2, a3, -⟩ := distributedAeroLoads_forces _ _ _ _ _ _ _ _ h i s hs
  obtain ⟨f1, f2, f3, -⟩ := station_facts hinv hre h hO hs hV hVx.ne' hVy.ne'
  have hd : 0 ≤ s.loads.cd := by rw [f2]; exact hcd _ _
  have hl := hsol.lift
  have hq : 0 ≤ s.loads.q := by rw [a1]; positivity
  refine ⟨by rw [a2]; positivity, (b2 ho hphi.1).trans (le_of_eq (by ring)), b1, ?_⟩
  have hneg : 0 ≤ R.rho * (Vx ^ 2 + Vy ^ 2) / 2 * R.chord i * s.loads.cd := by positivity
  rcases le_or_gt 0 (s.loads.cl * sin s.phi - s.loads.cd * cos s.phi) with hT | hT
  · have : 0 ≤ s.loads.Tp := by rw [a3]; positivity
    linarith
  obtain ⟨z, -, -⟩ := exact_interval hbq h hO hs hsol.solved
  rw [stationResidual_const hinv hre, hV] at z
  have hreg := hsol.regular
  unfold RegularAngle at hreg
  rw [← f1, ← f2] at z hreg f3
  simp only at z
  obtain ⟨hF, -⟩ := lossSpec_range R.opts R.B hB (R.r i) R.Rhub R.Rtip s.phi hatt.hub hatt.inner hatt.outer hphi.1 (by linarith [hphi.2])
  obtain ⟨e1, e2, e3⟩ := indOut_eq (R.r i) (R.chord i) R.Rhub R.Rtip s.phi s.loads.cl s.loads.cd R.B Vx Vy R.opts
  set I := inductionFactors (R.r i) (R.chord i) R.Rhub R.Rtip s.phi s.loads.cl s.loads.cd R.B Vx Vy R.opts with hI
  have hk : 0 ≤ kSpec R.opts R.B (R.r i) (R.chord i) R.Rhub R.Rtip s.phi s.loads.cl s.loads.cd := by
    unfold kSpec cnSpec
    rw [if_pos ho]
    positivity
  have ha1 : I.a < 1 := e1 ▸ axialInduction_lt_one s.phi _ _ hphi.1 hF (by linarith)
  have ha0 : 0 ≤ I.a := e1 ▸ axialInduction_nonneg hphi.1 hF hk hreg
  obtain ⟨hc, hap, htri, -⟩ := root_triangle _ _ _ _ _ _ _ _ _ _ _ hVx.ne' hVy.ne' hphi.1 (by linarith [hphi.2]) ha1.ne z
  obtain ⟨w1, w2⟩ := relSpeed_sq s.phi I.a I.ap Vx Vy hsp.ne' hc htri
  have hkp : (if R.opts.wakeRot then kpSpec R.opts R.B (R.r i) (R.chord i) R.Rhub R.Rtip s.phi s.loads.cl s.loads.cd else 0) ≤ 0 := by
    split_ifs
    · unfold kpSpec ctSpec
      rw [if_pos ho]
      exact div_nonpos_of_nonpos_of_nonneg (mul_nonpos_of_nonneg_of_nonpos (by positivity) hT.le) (by positivity)
    · exact le_rfl
  have ht0 : 0 < 1 + I.ap := by
    by_contra hc'
    push Not at hc'
    have : Vx * (1 - I.a) * cos s.phi ≤ 0 := by
      rw [htri]
      exact mul_nonpos_of_nonpos_of_nonneg (mul_nonpos_of_nonneg_of_nonpos hVy.le hc') hsp.le
    have : 0 < Vx * (1 - I.a) * cos s.phi := mul_pos (mul_pos hVx (by linarith)) hcp
    linarith
  have ht1 : 1 + I.ap ≤ 1 := by
    have := mul_nonneg ht0.le (neg_nonneg.mpr hkp)
    rw [mul_sub, mul_one] at hap
    rw [mul_neg] at this
    linarith
  have hW : s.loads.W ^ 2 ≤ Vx ^ 2 + Vy ^ 2 := by
    have e : s.loads.W ^ 2 = (Vx * (1 - I.a)) ^ 2 + (Vy * (1 + I.ap)) ^ 2 := by
      rw [f3, ← w1, ← w2, ← mul_add, sin_sq_add_cos_sq, mul_one]
    rw [e, mul_pow, mul_pow]
    have p1 : (1 - I.a) ^ 2 ≤ 1 := pow_le_one₀ (by linarith) (by linarith)
    have p2 : (1 + I.ap) ^ 2 ≤ 1 := pow_le_one₀ ht0.le ht1
    exact add_le_add (mul_le_of_le_one_right (sq_nonneg _) p1) (mul_le_of_le_one_right (sq_nonneg _) p2)
  rw [a3, a1]
  have hco := cos_le_one s.phi
  have m1 : s.loads.cd * cos s.phi ≤ s.loads.cd := mul_le_of_le_one_right hd hco
  have m2 : -s.loads.cd ≤ s.loads.cl * sin s.phi - s.loads.cd * cos s.phi := by linarith [mul_nonneg hl hsp.le]
  have m3 : 0 ≤ R.rho * s.loads.W ^ 2 / 2 * R.chord i := by positivity
  have m4 : R.rho * s.loads.W ^ 2 / 2 * R.chord i ≤ R.rho * (Vx ^ 2 + Vy ^ 2) / 2 * R.chord i := by gcongr
  have m5 := mul_le_mul_of_nonneg_left m2 m3
  have m6 := mul_le_mul_of_nonneg_right m4 hd
  linarith

section
variable {bq : RootFinder ℝ} {R : Rotor ℝ} {b : BladeShape} {c : Cond ℝ}

/-- **C119** The loads need not be bounded by assumption if the drag enters the residual: with a bounded chord, drag coefficients between zero and a
bound and inflow components that stay bounded and positive, attached flow alone gives the convergence. -/
theorem evaluate_refine_momentum (hbq : ExactRoots bq) (hinv : R.inv = none) (hhub : 0 < R.Rhub) (hcone : |R.precone| < π / 2) (hO : c.Omega ≠ 0)
    (hmu : R.mu ≠ 0) (hre : R.iterRe = 1 ∨ ∀ x, (b.af x).ReIndependent) (hb : b.ContinuousShape R.Rhub R.Rtip)
    (A : ∀ k < R.nSector, AttachedBlade bq R b c (k * (360 / R.nSector))) (ho : R.opts.useCd = true) (hrho : 0 ≤ R.rho) {C Cd V v : ℝ}
    (hC : ∀ x ∈ Set.Ioo R.Rhub R.Rtip, b.chord x ≤ C) (hcd : ∀ x alpha Re, 0 ≤ ((b.af x).evaluate alpha Re).2 ∧ ((b.af x).evaluate alpha Re).2 ≤ Cd)
    (hv : 0 < v) (hV : ∀ k < R.nSector, ∀ d n r, StationMesh R.Rhub R.Rtip d n r → ∀ i < n,
      (rotorWind (R.sampled b n r) c.Uinf c.Omega (k * (360 / R.nSector) * (π / 180)) i).1 ≤ V ∧
      v ≤ (rotorWind (R.sampled b n r) c.Uinf c.Omega (k * (360 / R.nSector) * (π / 180)) i).2 ∧
      (rotorWind (R.sampled b n r) c.Uinf c.Omega (k * (360 / R.nSector) * (π / 180)) i).2 ≤ V) :
    ∃ N T : ℕ → ℝ → ℝ, (∀ k < R.nSector, LoadAlong bq R b c.Uinf c.Omega c.pitch (k * (360 / R.nSector)) SecLoads.Np (N k)) ∧
      (∀ k < R.nSector, LoadAlong bq R b c.Uinf c.Omega c.pitch (k * (360 / R.nSector)) SecLoads.Tp (T k)) ∧ ∀ ε > 0,
      ∃ δ > 0, ∀ n r, StationMesh R.Rhub R.Rtip δ n r → ∀ (cs : List (Cond ℝ)) (co : Bool) (o : EvalOut ℝ) (m : ℕ) (x : CondOut ℝ),
        (evaluate bq (R.sampled b n r) cs co).2 = .ok o → cs[m]? = some c → o.conds[m]? = some x →
        |x.acc.T.val - trueThrust R N| ≤ ε ∧ |x.acc.Mb.val - trueMoment R N| ≤ ε ∧ |x.acc.Q.val - trueTorque R T| ≤ ε ∧
          |x.P.val - trueTorque R T * (c.Omega * (π / 30))| ≤ ε := by
  have hpi := pi_pos
  refine evaluate_refine_attached hbq hinv hhub hcone hO hmu hre hb A
    (D := R.rho * V ^ 2 * (2 * π * R.Rtip) + 16 / 27 * (R.rho * V ^ 3 / 2 * (2 * π * R.Rtip)) / v + R.rho * (V ^ 2 + V ^ 2) / 2 * C * Cd) ?_
  intro k hk d n r M L hL i s hs
  have e : distributedAeroLoads bq (R.sampled b n r) c.Uinf c.Omega c.pitch (k * (360 / R.nSector)) = (_, .ok L) := Prod.ext rfl hL
  have hi : i < n := (loads_station e hs).1
  obtain ⟨hr1, hr2⟩ := M.range hi
  obtain ⟨v1, v2, v3⟩ := hV k hk d n r M i hi
  obtain ⟨L', hL', hst⟩ := (A k hk).flow d n r M
  obtain rfl : L = L' := by rw [hL] at hL'; exact Except.ok.inj hL'
  obtain ⟨hatt, hsol⟩ := hst i s hs
  have hfre : FixedRe (R.sampled b n r) i := hre.imp id fun h => h _
  obtain ⟨b0, b1, b2, b3⟩ := attached_load_bounds hbq (R := R.sampled b n r) hinv hO e hs hfre ho hrho (fun alpha Re => (hcd (r i) alpha Re).1) hatt hsol
    (Vx := (rotorWind (R.sampled b n r) c.Uinf c.Omega (k * (360 / R.nSector) * (π / 180)) i).1)
    (Vy := (rotorWind (R.sampled b n r) c.Uinf c.Omega (k * (360 / R.nSector) * (π / 180)) i).2) rfl
  have hfront := hatt.front
  obtain ⟨-, f2, -⟩ := station_facts (R := R.sampled b n r) hinv hfre e hO hs (Prod.ext rfl rfl) hatt.front.ne' hatt.sense.ne'
  have hd0 : 0 ≤ s.loads.cd := by rw [f2]; exact (hcd _ _ _).1
  have hd1 : s.loads.cd ≤ Cd := by rw [f2]; exact (hcd _ _ _).2
  have hc0 : 0 < (R.sampled b n r).chord i := hatt.chord
  have hc1 : (R.sampled b n r).chord i ≤ C := hC _ ⟨hr1, hr2⟩
  have hB1 : (1 : ℝ) ≤ (R.sampled b n r).B := by exact_mod_cast hatt.blades
  have er : (R.sampled b n r).r i = r i := rfl
  have eh : (R.sampled b n r).rho = R.rho := rfl
  rw [er, eh] at b1 b2
  rw [eh] at b3
  generalize (rotorWind (R.sampled b n r) c.Uinf c.Omega (k * (360 / R.nSector) * (π / 180)) i).1 = Vx at *
  generalize (rotorWind (R.sampled b n r) c.Uinf c.Omega (k * (360 / R.nSector) * (π / 180)) i).2 = Vy at *
  generalize ((R.sampled b n r).B : ℝ) = Bn at *
  generalize (R.sampled b n r).chord i = ch at *
  have hVx : 0 ≤ Vx := hfront.le
  have hVy : 0 < Vy := hv.trans_le v2
  have hV0 : 0 ≤ V := hVx.trans v1
  have hr0 : 0 < r i := hhub.trans hr1
  have hR0 : 0 < R.Rtip := hr0.trans hr2
  have hC0 : 0 ≤ C := hc0.le.trans hc1
  have hCd0 : 0 ≤ Cd := hd0.trans hd1
  have p1 : R.rho * Vx ^ 2 * (2 * π * r i) ≤ R.rho * V ^ 2 * (2 * π * R.Rtip) := by gcongr
  have p2 : 16 / 27 * (R.rho * Vx ^ 3 / 2 * (2 * π * r i)) ≤ 16 / 27 * (R.rho * V ^ 3 / 2 * (2 * π * R.Rtip)) := by gcongr
  have p3 : R.rho * (Vx ^ 2 + Vy ^ 2) / 2 * ch * s.loads.cd ≤ R.rho * (V ^ 2 + V ^ 2) / 2 * C * Cd := by gcongr
  have n1 : 0 ≤ R.rho * V ^ 2 * (2 * π * R.Rtip) := by positivity
  have n2 : 0 ≤ 16 / 27 * (R.rho * V ^ 3 / 2 * (2 * π * R.Rtip)) / v := by positivity
  have n3 : 0 ≤ R.rho * (V ^ 2 + V ^ 2) / 2 * C * Cd := by positivity
  constructor
  · rw [abs_of_nonneg b0]
    have : s.loads.Np ≤ Bn * s.loads.Np := le_mul_of_one_le_left b0 hB1
    linarith
  · rw [abs_le]
    refine ⟨by linarith, ?_⟩
    rcases le_or_gt s.loads.Tp 0 with hT | hT
    · linarith
    have q1 : s.loads.Tp * v ≤ Bn * s.loads.Tp * Vy :=
      mul_le_mul (le_mul_of_one_le_left hT.le hB1) v2 hv.le (by positivity)
    have q2 : s.loads.Tp ≤ 16 / 27 * (R.rho * V ^ 3 / 2 * (2 * π * R.Rtip)) / v := by
      rw [le_div_iff₀ hv]
      linarith
    linarith

end

/-! ## An example -/

/-- Blades whose chord grows with the radius and whose lift coefficient is the squared sine of the angle of attack. -/
noncomputable def risingShape : BladeShape :=
  ⟨fun x => 2 * π * x / 3, fun _ => 0, fun _ => ⟨fun alpha _ => (sin alpha ^ 2, 0), fun _ _ => 0, fun _ _ => 0, fun _ _ => 0, fun _ _ => 0⟩⟩

section
variable {d : ℝ} {n : ℕ} {r : ℕ → ℝ}

theorem risingShape_straight (M : StationMesh risingRotor.Rhub risingRotor.Rtip d n r) : StraightRotor (risingRotor.sampled risingShape n r) :=
  have G := risingRotor_straight
  ⟨M.two, G.hub, M.first, M.inc, M.last, fun _ => rfl, rfl, fun _ => rfl, rfl, G.cone, G.radius, ⟨G.axial.1, G.axial.2, G.axial.3⟩⟩

theorem risingShape_polar (U az : ℝ) (i : ℕ) (p : ℝ) : stationPolar (risingRotor.sampled risingShape n r) U (30 / π) 0 az i p = (sin p ^ 2, 0) := by
  simp [stationPolar, Rotor.sampled, risingShape]

theorem risingShape_loss (i : ℕ) (p : ℝ) : lossSpec (risingRotor.sampled risingShape n r).opts (risingRotor.sampled risingShape n r).B
    ((risingRotor.sampled risingShape n r).r i) (risingRotor.sampled risingShape n r).Rhub (risingRotor.sampled risingShape n r).Rtip p = 1 := by
  simp [lossSpec, Rotor.sampled, risingRotor, annulusRotor]

theorem risingShape_k {i : ℕ} (hr : 0 < r i) {p : ℝ} (h0 : 0 < p) (h1 : p ≤ π / 2) :
    kSpec (risingRotor.sampled risingShape n r).opts (risingRotor.sampled risingShape n r).B ((risingRotor.sampled risingShape n r).r i)
      ((risingRotor.sampled risingShape n r).chord i) (risingRotor.sampled risingShape n r).Rhub (risingRotor.sampled risingShape n r).Rtip p (sin p ^ 2) 0
      = cos p / 4 := by
  have hpi := pi_pos
  have hs : sin p ≠ 0 := (sin_pos_of_pos_of_lt_pi h0 (by linarith)).ne'
  unfold kSpec cnSpec
  rw [risingShape_loss]
  simp only [Rotor.sampled, risingShape, risingRotor, annulusRotor, demoRotor, if_true, zero_mul, add_zero]
  push_cast
  field_simp

theorem risingShape_residual (M : StationMesh risingRotor.Rhub risingRotor.Rtip d n r) (U az : ℝ) {i : ℕ} (hi : i < n) {p : ℝ} (h0 : 0 < p)
    (h1 : p ≤ π / 2) :
    stationResidual (risingRotor.sampled risingShape n r) U (30 / π) 0 az i p = sin p * (1 + cos p / 4) - U / r i * cos p := by
  have hpi := pi_pos
  have G := risingShape_straight M
  have hri : 0 < r i := G.hub.trans (G.range hi).1
  have hc : 0 ≤ cos p := cos_nonneg_of_mem_Icc ⟨by linarith, h1⟩
  rw [stationResidual_const rfl (.inr fun _ _ _ => rfl), G.wind _ _ _ hi, (indOut_eq _ _ _ _ _ _ _ _ _ _ _).2.2, risingShape_polar]
  simp only
  rw [risingShape_k hri h0 h1, risingShape_loss, axial_momentum h0 (by linarith [cos_le_one p])]
  simp only [bemResidual, if_pos h0]
  have hwr : (risingRotor.sampled risingShape n r).opts.wakeRot = false := rfl
  have hcone : (risingRotor.sampled risingShape n r).precone = 0 := by simp [risingRotor, Rotor.sampled, annulusRotor, demoRotor]
  have hr : (risingRotor.sampled risingShape n r).r i = r i := rfl
  rw [hwr, hcone, hr, cos_zero]
  simp only [Bool.false_eq_true, if_false]
  have e : 1 - cos p / 4 / (1 + cos p / 4) = 1 / (1 + cos p / 4) := by field_simp; ring
  rw [e]
  field_simp
  ring

theorem risingShape_station (M : StationMesh risingRotor.Rhub risingRotor.Rtip d n r) {az : ℝ} {R' : Rotor ℝ} {L : LoadsOut ℝ}
    (h : distributedAeroLoads someRoot (risingRotor.sampled risingShape n r) 6 (30 / π) 0 az = (R', .ok L)) {i : ℕ} {s : Station ℝ}
    (hs : L.stations[i]? = some s) : s.warned = false ∧ s.phi ∈ Set.Ioo 0 (π / 2) := by
  have hpi := pi_gt_three
  have G := risingShape_straight M
  have hi : i < n := (loads_station h hs).1
  obtain ⟨hr1, hr2⟩ : 1 < r i ∧ r i < 10 := G.range hi
  have hle : (1 / 1000000 : ℝ) ≤ π / 2 := by linarith
  have hx : 6 / 10 ≤ 6 / r i := div_le_div₀ (by norm_num) le_rfl (by linarith) hr2.le
  obtain ⟨d, h1, -⟩ := solveStation_real (loads_station h hs).2
  have hf : stationErrf (risingRotor.sampled risingShape n r) (deg2rad 0) (rotorWind (risingRotor.sampled risingShape n r) 6 (30 / π) (deg2rad az)) i
      = stationResidual (risingRotor.sampled risingShape n r) 6 (30 / π) 0 az i := rfl
  unfold stationPhi at h1
  rw [if_neg (by simp [num_real]), hf, if_neg (by simp [risingRotor, Rotor.sampled, annulusRotor, demoRotor])] at h1
  have e := fun phi h0 h1 => risingShape_residual M 6 az hi (p := phi) h0 h1
  set f := stationResidual (risingRotor.sampled risingShape n r) 6 (30 / π) 0 az i
  have f2 : f (π / 2) = 1 := by rw [e _ (by linarith) le_rfl, sin_pi_div_two, cos_pi_div_two]; norm_num
  have hsign : f (1 / 1000000) * f (π / 2) ≤ 0 := by
    rw [f2, mul_one, e _ (by norm_num) hle]
    have s1 : sin (1 / 1000000) ≤ 1 / 1000000 := sin_le (by norm_num)
    have s0 : 0 ≤ sin (1 / 1000000) := sin_nonneg_of_nonneg_of_le_pi (by norm_num) (by linarith)
    have c1 : 1 / 2 ≤ cos (1 / 1000000) := by
      have := one_sub_sq_div_two_le_cos (x := 1 / 1000000)
      norm_num at this ⊢
      linarith
    have c2 := cos_le_one (1 / 1000000)
    have h3 : sin (1 / 1000000) * (1 + cos (1 / 1000000) / 4) ≤ 1 / 1000000 * (1 + 1 / 4) :=
      mul_le_mul s1 (by linarith) (by linarith) (by norm_num)
    have h4 : 6 / 10 * (1 / 2) ≤ 6 / r i * cos (1 / 1000000) := mul_le_mul hx c1 (by norm_num) (by linarith)
    norm_num at h3 h4 ⊢
    linarith
  have hcont : ContinuousOn f (Set.Icc (1 / 1000000) (π / 2)) := by
    refine ContinuousOn.congr (f := fun phi => sin phi * (1 + cos phi / 4) - 6 / r i * cos phi) (by fun_prop) ?_
    intro phi hp
    exact e phi (lt_of_lt_of_le (by norm_num) hp.1) hp.2
  obtain ⟨p, e1, e2, e3⟩ := someRoot_finds f _ _ hle hcont hsign
  unfold solvePhi at h1
  rw [(bracket_choice f).1 hsign] at h1
  simp only [e1, Except.ok.injEq, Prod.mk.injEq] at h1
  rw [← h1.1]
  refine ⟨h1.2.symm, lt_of_lt_of_le (by norm_num) e3.1, lt_of_le_of_ne e3.2 fun h0 => ?_⟩
  rw [h0, f2] at e2
  norm_num at e2

theorem risingShape_facts (M : StationMesh risingRotor.Rhub risingRotor.Rtip d n r) {az : ℝ} {R' : Rotor ℝ} {L : LoadsOut ℝ}
    (h : distributedAeroLoads someRoot (risingRotor.sampled risingShape n r) 6 (30 / π) 0 az = (R', .ok L)) {i : ℕ} {s : Station ℝ}
    (hs : L.stations[i]? = some s) : AttachedStation (risingRotor.sampled risingShape n r) 6 (30 / π) 0 az i ∧
      SolvedWithLift (risingRotor.sampled risingShape n r) 6 (30 / π) 0 az i s ∧ s.loads.cl = sin s.phi ^ 2 ∧ s.loads.cd = 0 ∧ s.loads.W ^ 2 ≤ 136 := by
  have hpi := pi_gt_three
  have hO : 30 / π ≠ 0 := by positivity
  have G := risingShape_straight M
  have hi : i < n := (loads_station h hs).1
  obtain ⟨hr1, hr2⟩ : 1 < r i ∧ r i < 10 := G.range hi
  have hri : 0 < r i := by linarith
  obtain ⟨w, hphi⟩ := risingShape_station M h hs
  have hcp : 0 < cos s.phi := cos_pos_of_mem_Ioo ⟨by linarith [hphi.1], hphi.2⟩
  have hV : rotorWind (risingRotor.sampled risingShape n r) 6 (30 / π) (az * (π / 180)) i = (6, r i) := by
    rw [G.wind 6 (30 / π) (az * (π / 180)) hi]
    have hcone : (risingRotor.sampled risingShape n r).precone = 0 := by simp [risingRotor, Rotor.sampled, annulusRotor, demoRotor]
    have hr : (risingRotor.sampled risingShape n r).r i = r i := rfl
    rw [hcone, cos_zero, hr, mul_one, mul_one]
    congr 1
    field_simp
  have hB : 0 < (risingRotor.sampled risingShape n r).B := by simp [risingRotor, Rotor.sampled, annulusRotor, demoRotor]
  have hsin : ∀ {p q : ℝ}, 0 < p → p ≤ q → q ≤ π / 2 → sin p ^ 2 ≤ sin q ^ 2 := fun h0 h1 h2 =>
    pow_le_pow_left₀ (sin_nonneg_of_nonneg_of_le_pi h0.le (by linarith)) (sin_le_sin_of_le_of_le_pi_div_two (by linarith) h2 h1) 2
  have hflow : AttachedFlow (risingRotor.sampled risingShape n r).opts (risingRotor.sampled risingShape n r).B ((risingRotor.sampled risingShape n r).r i)
      (risingRotor.sampled risingShape n r).Rhub (risingRotor.sampled risingShape n r).Rtip
      (fun p => (stationPolar (risingRotor.sampled risingShape n r) 6 (30 / π) 0 az i p).1)
      (fun p => (stationPolar (risingRotor.sampled risingShape n r) 6 (30 / π) 0 az i p).2) :=
    attachedFlow_of_constant_drag hB G.hub (G.range hi).1 (G.range hi).2 (fun h0 h1 h2 => by simp only [risingShape_polar]; exact hsin h0 h1 h2)
      fun _ => ⟨0, le_rfl, fun _ _ _ => by simp only [risingShape_polar]⟩
  have hchord : 0 < (risingRotor.sampled risingShape n r).chord i := by simp only [Rotor.sampled, risingShape]; positivity
  have hreg : RegularAngle (risingRotor.sampled risingShape n r) 6 (30 / π) 0 az i s.phi := by
    unfold RegularAngle
    rw [risingShape_polar, risingShape_loss]
    simp only
    rw [risingShape_k hri hphi.1 hphi.2.le]
    exact regularK_lossless (by linarith)
  obtain ⟨f1, f2, f3, -⟩ := station_facts (R := risingRotor.sampled risingShape n r) rfl (.inr fun _ _ _ => rfl) h hO hs hV (by norm_num) hri.ne'
  rw [risingShape_polar] at f1 f2
  obtain ⟨z, -, -⟩ := exact_interval someRoot_exact h hO hs w
  have z' := z
  rw [risingShape_residual M 6 az hi hphi.1 hphi.2.le] at z
  rw [stationResidual_const rfl (.inr fun _ _ _ => rfl), hV] at z'
  refine ⟨⟨hB, G.hub, (G.range hi).1, (G.range hi).2, hchord, by rw [hV]; norm_num, by rw [hV]; exact hri, hflow⟩,
    ⟨w, hphi, by rw [f1]; positivity, hreg⟩, f1, f2, ?_⟩
  obtain ⟨-, t⟩ := section_speed hB G.hub (G.range hi).1 (G.range hi).2 hchord (by norm_num) hri hflow hphi z' hreg (by rw [risingShape_polar]; positivity)
  have s0 : sectionSwirl (risingRotor.sampled risingShape n r).opts (risingRotor.sampled risingShape n r).B ((risingRotor.sampled risingShape n r).r i)
      ((risingRotor.sampled risingShape n r).chord i) (risingRotor.sampled risingShape n r).Rhub (risingRotor.sampled risingShape n r).Rtip
      (fun p => (stationPolar (risingRotor.sampled risingShape n r) 6 (30 / π) 0 az i p).1)
      (fun p => (stationPolar (risingRotor.sampled risingShape n r) 6 (30 / π) 0 az i p).2) s.phi = 0 := by
    simp [sectionSwirl, risingRotor, annulusRotor, Rotor.sampled]
  rw [s0, sub_zero, div_one, ← f3] at t
  have hsp : 0 < sin s.phi := sin_pos_of_pos_of_lt_pi hphi.1 (by linarith [hphi.2])
  have h1 : r i * sin s.phi ≤ 6 * cos s.phi := by
    have e : 6 / r i * cos s.phi * r i = 6 * cos s.phi := by field_simp
    have : sin s.phi * (1 + cos s.phi / 4) * r i = 6 * cos s.phi := by rw [← e]; congr 1; linarith
    nlinarith [mul_pos (mul_pos hsp hcp) hri]
  have h2 : r i ^ 2 * sin s.phi ^ 2 ≤ 36 * cos s.phi ^ 2 := by
    have := pow_le_pow_left₀ (mul_nonneg hri.le hsp.le) h1 2
    nlinarith
  have h3 : r i ^ 2 ≤ (r i ^ 2 + 36) * cos s.phi ^ 2 := by nlinarith [sin_sq_add_cos_sq s.phi]
  have hc2 : 0 < cos s.phi ^ 2 := by positivity
  have h4 : s.loads.W ^ 2 ≤ r i ^ 2 + 36 := by
    refine le_of_mul_le_mul_right ?_ hc2
    rw [t]
    exact h3
  nlinarith

end

theorem risingShape_continuous : risingShape.ContinuousShape risingRotor.Rhub risingRotor.Rtip :=
  ⟨by simp only [risingShape]; fun_prop, by simp only [risingShape]; fun_prop, by simp only [risingShape]; fun_prop⟩

theorem risingShape_attached (az : ℝ) : AttachedBlade someRoot risingRotor risingShape ⟨6, 30 / π, 0⟩ az := by
  have hpi := pi_pos
  refine ⟨fun x hx => ?_, fun d n r M => ?_⟩
  · obtain ⟨h1, h2⟩ : 1 < x ∧ x < 10 := hx
    generalize az * (π / 180) = z
    have c2 := neg_one_le_cos z
    have c1 := cos_le_one z
    simp only [relHeight, risingRotor, annulusRotor, demoRotor, cos_zero, sin_zero]
    rw [show 1 + ((0 * sin z + (x * 1 + 0 * 0) * cos z) * 1 - (0 * 1 - x * 0) * 0) / 90 = (90 + x * cos z) / 90 by ring]
    refine div_pos ?_ (by norm_num)
    nlinarith
  · obtain ⟨L, hL, -⟩ := distributedAeroLoads_finds someRoot someRoot_onlyValueError (risingRotor.sampled risingShape n r) 6 (30 / π) 0 az
      (by simp [risingRotor, Rotor.sampled, annulusRotor, demoRotor]) rfl (by simp)
    refine ⟨L, hL, fun i s hs => ?_⟩
    obtain ⟨a1, a2, -⟩ := risingShape_facts M (Prod.ext rfl hL) hs
    exact ⟨a1, a2⟩

/-- The hypotheses of `evaluate_refine_attached` are met: every division of the blade is analysed, arbitrarily fine divisions exist, and there is a thrust
to which that of ever finer divisions converges. -/
example : ∃ T0 : ℝ, ∀ ε > 0, ∃ δ > 0, (∃ n r, StationMesh 1 10 δ n r) ∧ ∀ n r, StationMesh 1 10 δ n r →
    ∃ o x, (evaluate someRoot (risingRotor.sampled risingShape n r) [⟨6, 30 / π, 0⟩] false).2 = .ok o ∧ o.conds = [x] ∧ |x.acc.T.val - T0| ≤ ε := by
  have hpi := pi_gt_three
  have hO : 30 / π ≠ 0 := by positivity
  have hrho : 0 ≤ risingRotor.rho := by norm_num [risingRotor, annulusRotor, demoRotor]
  obtain ⟨N, T, -, -, key⟩ := evaluate_refine_attached (bq := someRoot) (R := risingRotor) (b := risingShape) (c := ⟨6, 30 / π, 0⟩) someRoot_exact rfl
    risingRotor_straight.hub risingRotor_straight.cone hO (by norm_num [risingRotor, annulusRotor, demoRotor]) (.inr fun _ _ _ _ => rfl)
    risingShape_continuous (fun k _ => risingShape_attached _)
    (D := risingRotor.rho * 136 / 2 * (2 * π * 10 / 3))
    (fun k _ d n r M L hL i s hs => by
      have e : distributedAeroLoads someRoot (risingRotor.sampled risingShape n r) 6 (30 / π) 0 (k * (360 / risingRotor.nSector)) = (_, .ok L) :=
        Prod.ext rfl hL
      obtain ⟨-, -, h1, h2, h3⟩ := risingShape_facts M e hs
      obtain ⟨hr1, hr2⟩ : 1 < r i ∧ r i < 10 := M.range (loads_station e hs).1
      obtain ⟨a1, a2, a3, -⟩ := distributedAeroLoads_forces _ _ _ _ _ _ _ _ e i s hs
      have hch : (risingRotor.sampled risingShape n r).chord i = 2 * π * r i / 3 := rfl
      have hr : (risingRotor.sampled risingShape n r).rho = risingRotor.rho := rfl
      have hq : |s.loads.q * (2 * π * r i / 3)| ≤ risingRotor.rho * 136 / 2 * (2 * π * 10 / 3) := by
        rw [a1, hr, abs_of_nonneg (by positivity)]
        gcongr
      have hsc : ∀ u v : ℝ, |u| ≤ 1 → |v| ≤ 1 → |u ^ 2 * v + 0| ≤ 1 := fun u v hu hv => by
        rw [add_zero, abs_mul, abs_pow]
        exact mul_le_one₀ (pow_le_one₀ (abs_nonneg _) hu) (abs_nonneg _) hv
      have hD : (0 : ℝ) ≤ risingRotor.rho * 136 / 2 * (2 * π * 10 / 3) := by positivity
      rw [a2, a3, h1, h2, hch]
      refine ⟨?_, ?_⟩
      · rw [zero_mul, abs_mul]
        exact (mul_le_mul hq (hsc _ _ (abs_sin_le_one _) (abs_cos_le_one _)) (abs_nonneg _) hD).trans (le_of_eq (mul_one _))
      · rw [zero_mul, sub_eq_add_neg, neg_zero, abs_mul]
        exact (mul_le_mul hq (hsc _ _ (abs_sin_le_one _) (abs_sin_le_one _)) (abs_nonneg _) hD).trans (le_of_eq (mul_one _)))
  refine ⟨trueThrust risingRotor N, fun ε hε => ?_⟩
  obtain ⟨δ, hδ, h⟩ := key ε hε
  refine ⟨δ, hδ, uniform_mesh (by norm_num) hδ, fun n r M => ?_⟩
  obtain ⟨o, x, ho, hx, -⟩ := evaluate_total someRoot_onlyValueError (risingRotor.sampled risingShape n r) ⟨6, 30 / π, 0⟩ false
    (by simp [risingRotor, Rotor.sampled, annulusRotor, demoRotor]) rfl hO (by simp [risingRotor, Rotor.sampled, annulusRotor, demoRotor])
  exact ⟨o, x, ho, hx, (h n r M _ _ o 0 x ho rfl (by rw [hx]; rfl)).1⟩

/-- The hypotheses of `evaluate_refine_momentum` are met: the power converges, too. -/
example : ∃ P0 : ℝ, ∀ ε > 0, ∃ δ > 0, (∃ n r, StationMesh 1 10 δ n r) ∧ ∀ n r, StationMesh 1 10 δ n r →
    ∃ o x, (evaluate someRoot (risingRotor.sampled risingShape n r) [⟨6, 30 / π, 0⟩] false).2 = .ok o ∧ o.conds = [x] ∧ |x.P.val - P0| ≤ ε := by
  have hpi := pi_gt_three
  have hO : 30 / π ≠ 0 := by positivity
  obtain ⟨N, T, -, -, key⟩ := evaluate_refine_momentum (bq := someRoot) (R := risingRotor) (b := risingShape) (c := ⟨6, 30 / π, 0⟩) someRoot_exact rfl
    risingRotor_straight.hub risingRotor_straight.cone hO (by norm_num [risingRotor, annulusRotor, demoRotor]) (.inr fun _ _ _ _ => rfl)
    risingShape_continuous (fun k _ => risingShape_attached _) rfl (by norm_num [risingRotor, annulusRotor, demoRotor]) (C := 2 * π * 10 / 3) (Cd := 0)
    (V := 10) (v := 1)
    (fun x hx => by
      obtain ⟨h1, h2⟩ : 1 < x ∧ x < 10 := hx
      simp only [risingShape]
      gcongr)
    (fun x alpha Re => by simp [risingShape]) one_pos
    (fun k _ d n r M i hi => by
      obtain ⟨h1, h2⟩ : 1 < r i ∧ r i < 10 := M.range hi
      rw [(risingShape_straight M).wind 6 (30 / π) _ hi]
      have hcone : (risingRotor.sampled risingShape n r).precone = 0 := by simp [risingRotor, Rotor.sampled, annulusRotor, demoRotor]
      have hr : (risingRotor.sampled risingShape n r).r i = r i := rfl
      have e : 30 / π * π / 30 = 1 := by field_simp
      simp only [hcone, hr, cos_zero, mul_one, e, one_mul]
      exact ⟨by norm_num, h1.le, h2.le⟩)
  refine ⟨trueTorque risingRotor T * (30 / π * (π / 30)), fun ε hε => ?_⟩
  obtain ⟨δ, hδ, h⟩ := key ε hε
  refine ⟨δ, hδ, uniform_mesh (by norm_num) hδ, fun n r M => ?_⟩
  obtain ⟨o, x, ho, hx, -⟩ := evaluate_total someRoot_onlyValueError (risingRotor.sampled risingShape n r) ⟨6, 30 / π, 0⟩ false
    (by simp [risingRotor, Rotor.sampled, annulusRotor, demoRotor]) rfl hO (by simp [risingRotor, Rotor.sampled, annulusRotor, demoRotor])
  exact ⟨o, x, ho, hx, (h n r M _ _ o 0 x ho rfl (by rw [hx]; rfl)).2.2.2⟩

end Verif
