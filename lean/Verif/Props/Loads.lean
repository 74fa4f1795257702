import Verif.Props.Solve
import Verif.Props.Geometry

/-!
# Loads at a station (C34, C36, C42, C43)
-/

namespace Verif

/-! ## Helpers -/

theorem solveStation_real {bq : RootFinder ℝ} {R : Rotor ℝ} {pitch Omega : ℝ} {V : ℕ → ℝ × ℝ} {i : ℕ} {s : Station ℝ}
    (h : solveStation bq R pitch Omega V i = .ok s) :
    ∃ d, stationPhi bq R pitch Omega V i = .ok (s.phi, s.warned) ∧ s.theta = stationTheta R pitch s.phi i ∧
      secLoads R pitch s.phi (!(Omega == 0)) (stationSec R V i s.theta) = .ok (s.loads, d) ∧
      (s.dNp = fun j => d.dNp (j + 1) - d.dNp 0 / d.dR 0 * d.dR (j + 1)) ∧
      (s.dTp = fun j => d.dTp (j + 1) - d.dTp 0 / d.dR 0 * d.dR (j + 1)) := by
  obtain ⟨l, d, h1, h2, h3, h4, h5, h6⟩ := solveStation_ok h
  simp only [real_isNaN, Bool.false_eq_true, if_false] at h4
  rw [← h4] at h3
  exact ⟨d, h1, h2, h3, h5, h6⟩

/-- A station of a successful call. -/
theorem loads_station {bq : RootFinder ℝ} {R R' : Rotor ℝ} {Uinf Omega pitch az : ℝ} {L : LoadsOut ℝ}
    (h : distributedAeroLoads bq R Uinf Omega pitch az = (R', .ok L)) {i : ℕ} {s : Station ℝ}
    (hs : L.stations[i]? = some s) :
    i < R.n ∧ solveStation bq R (deg2rad pitch) Omega (rotorWind R Uinf Omega (deg2rad az)) i = .ok s := by
  obtain ⟨h1, h2⟩ := solveStations_ok (distributedAeroLoads_stations h)
  have hi : i < R.n := by
    rw [← h1]
    exact (List.getElem?_eq_some_iff.mp hs).1
  obtain ⟨s', e1, e2⟩ := h2 i hi
  rw [hs, Option.some.injEq] at e1
  subst e1
  exact ⟨hi, e2⟩

theorem secLoads_ok {R : Rotor ℝ} {pitch phi : ℝ} {rot : Bool} {x : Sec ℝ} {l : SecLoads ℝ} {d : SecDerivs ℝ}
    (h : secLoads R pitch phi rot x = .ok (l, d)) :
    (x.Vx ≠ 0 ∧ x.Vy ≠ 0 ∧ l = secValues R pitch phi rot x ∧ d = secDerivs R pitch phi rot x l ∧
      (R.derivatives = true → l.cn ≠ 0 ∧ l.W ≠ 0 ∧ x.chord ≠ 0)) ∨
    ((x.Vx = 0 ∨ x.Vy = 0) ∧ l = ⟨0, 0, 0, 0, 0, 0, 0, 0, 0, 0, 0, 0⟩) := by
  unfold secLoads at h
  split_ifs at h with hv
  · simp only [num_real, Bool.and_eq_true, Bool.not_eq_true', decide_eq_false_iff_not] at hv
    simp only at h
    split_ifs at h with hd
    simp only [Except.ok.injEq, Prod.mk.injEq] at h
    refine Or.inl ⟨hv.1, hv.2, h.1.symm, by rw [← h.1]; exact h.2.symm, fun hR => ?_⟩
    simp only [hR, Bool.true_and, num_real, Bool.or_eq_true, decide_eq_true_eq, not_or] at hd
    rw [← h.1]
    exact ⟨hd.1.1, hd.1.2, hd.2⟩
  · simp only [Except.ok.injEq, Prod.mk.injEq] at h
    simp only [num_real, Bool.and_eq_true, Bool.not_eq_true', decide_eq_false_iff_not, not_and_or, not_not] at hv
    exact Or.inr ⟨hv, h.1.symm⟩

theorem bemPasses_coef (R : Rotor ℝ) (pitch phi : ℝ) (x : Sec ℝ) :
    ∀ (k : ℕ) (o : BemOut ℝ), (∃ Re, (o.cl, o.cd) = x.af.evaluate (phi - (x.theta + pitch)) Re) →
      ∃ Re, ((bemPasses R pitch phi x k o).cl, (bemPasses R pitch phi x k o).cd)
        = x.af.evaluate (phi - (x.theta + pitch)) Re
  | 0, _, h => h
  | k + 1, o, _ => bemPasses_coef R pitch phi x k _ ⟨_, rfl⟩

theorem runBEM_coef (R : Rotor ℝ) (pitch phi : ℝ) (x : Sec ℝ) :
    ∃ Re, ((runBEM R pitch phi x).cl, (runBEM R pitch phi x).cd) = x.af.evaluate (phi - (x.theta + pitch)) Re :=
  bemPasses_coef R pitch phi x _ _ ⟨_, rfl⟩

/-! ## C34 -/

/-- **C34** At every station the normal and tangential load are lift and drag of the reported coefficients resolved at
the inflow angle, drag included whatever the option `usecd`; the resultant is that of lift and drag. -/
theorem distributedAeroLoads_forces (bq : RootFinder ℝ) (R R' : Rotor ℝ) (Uinf Omega pitch az : ℝ) (L : LoadsOut ℝ)
    (h : distributedAeroLoads bq R Uinf Omega pitch az = (R', .ok L)) (i : ℕ) (s : Station ℝ)
    (hs : L.stations[i]? = some s) :
    s.loads.q = R.rho * s.loads.W ^ 2 / 2 ∧
    s.loads.Np = s.loads.q * R.chord i * (s.loads.cl * Real.cos s.phi + s.loads.cd * Real.sin s.phi) ∧
    s.loads.Tp = s.loads.q * R.chord i * (s.loads.cl * Real.sin s.phi - s.loads.cd * Real.cos s.phi) ∧
    s.loads.Np ^ 2 + s.loads.Tp ^ 2 = (s.loads.q * R.chord i) ^ 2 * (s.loads.cl ^ 2 + s.loads.cd ^ 2) := by
  obtain ⟨d, -, -, h3, -, -⟩ := solveStation_real (loads_station h hs).2
  have key : s.loads.q = R.rho * s.loads.W ^ 2 / 2 ∧
    s.loads.Np = s.loads.q * R.chord i * (s.loads.cl * Real.cos s.phi + s.loads.cd * Real.sin s.phi) ∧
    s.loads.Tp = s.loads.q * R.chord i * (s.loads.cl * Real.sin s.phi - s.loads.cd * Real.cos s.phi) := by
    rcases secLoads_ok h3 with ⟨-, -, hl, -⟩ | ⟨-, hl⟩
    · rw [hl]
      simp only [secValues, stationSec, num_real]
      refine ⟨?_, ?_, ?_⟩ <;> push_cast <;> ring
    · rw [hl]
      simp
  refine ⟨key.1, key.2.1, key.2.2, ?_⟩
  rw [key.2.1, key.2.2]
  have := Real.sin_sq_add_cos_sq s.phi
  linear_combination (s.loads.q * R.chord i) ^ 2 * (s.loads.cl ^ 2 + s.loads.cd ^ 2) * this

/-- **C34** At a station with nonzero inflow components the reported coefficients are those of the station's airfoil at
the reported angle of attack, which is inflow angle minus twist minus pitch. -/
theorem distributedAeroLoads_coefficients (bq : RootFinder ℝ) (R R' : Rotor ℝ) (Uinf Omega pitch az : ℝ)
    (L : LoadsOut ℝ) (h : distributedAeroLoads bq R Uinf Omega pitch az = (R', .ok L)) (i : ℕ) (s : Station ℝ)
    (hs : L.stations[i]? = some s) (hV : (rotorWind R Uinf Omega (az * (Real.pi / 180)) i).1 ≠ 0 ∧
      (rotorWind R Uinf Omega (az * (Real.pi / 180)) i).2 ≠ 0) :
    s.loads.alpha * (Real.pi / 180) = s.phi - s.theta - pitch * (Real.pi / 180) ∧
    ∃ Re, (s.loads.cl, s.loads.cd) = (R.af i).evaluate (s.loads.alpha * (Real.pi / 180)) Re := by
  obtain ⟨d, -, -, h3, -, -⟩ := solveStation_real (loads_station h hs).2
  simp only [real_deg2rad] at h3
  have hpi := Real.pi_ne_zero
  rcases secLoads_ok h3 with ⟨-, -, hl, -⟩ | ⟨h0, -⟩
  · have ha : s.loads.alpha * (Real.pi / 180) = s.phi - (s.theta + pitch * (Real.pi / 180)) := by
      rw [hl]
      simp only [secValues, stationSec, relativeWind, num_real]
      field_simp
    refine ⟨by rw [ha]; ring, ?_⟩
    rw [ha, hl]
    simp only [secValues, stationSec]
    cases hb : (!(Omega == 0)) with
    | true =>
      simp only [if_true]
      exact runBEM_coef R _ _ ⟨R.r i, R.chord i, s.theta, R.af i, _, _⟩
    | false =>
      simp only [Bool.false_eq_true, if_false]
      exact ⟨_, rfl⟩
  · exact absurd h0 (by simp only [stationSec, not_or]; exact hV)

/-- **C34** At a station with nonzero inflow components the reported speed is that of the wind with the reported induction (none at
standstill) and the reported Reynolds number is based on it; the coefficients of a rotating section solved in one pass are those
at the Reynolds number of the wind without induction. -/
theorem distributedAeroLoads_speed (bq : RootFinder ℝ) (R R' : Rotor ℝ) (Uinf Omega pitch az : ℝ)
    (L : LoadsOut ℝ) (h : distributedAeroLoads bq R Uinf Omega pitch az = (R', .ok L)) (i : ℕ) (s : Station ℝ)
    (hs : L.stations[i]? = some s) (Vx Vy : ℝ) (hV : rotorWind R Uinf Omega (az * (Real.pi / 180)) i = (Vx, Vy)) (hx : Vx ≠ 0) (hy : Vy ≠ 0) :
    (Omega = 0 → s.loads.a = 0 ∧ s.loads.ap = 0) ∧
    (|s.loads.a| ≤ 10 → |s.loads.ap| ≤ 10 →
      0 ≤ s.loads.W ∧ s.loads.W ^ 2 = (Vx * (1 - s.loads.a)) ^ 2 + (Vy * (1 + s.loads.ap)) ^ 2) ∧
    (10 < |s.loads.a| → s.loads.W = Vy * (1 + s.loads.ap) / Real.cos s.phi) ∧
    (|s.loads.a| ≤ 10 → 10 < |s.loads.ap| → s.loads.W = Vx * (1 - s.loads.a) / Real.sin s.phi) ∧
    s.loads.Re = R.rho * s.loads.W * R.chord i / R.mu ∧
    (Omega = 0 → (s.loads.cl, s.loads.cd) = (R.af i).evaluate (s.loads.alpha * (Real.pi / 180)) s.loads.Re) ∧
    (Omega ≠ 0 → R.iterRe = 1 → (s.loads.cl, s.loads.cd) = (R.af i).evaluate (s.loads.alpha * (Real.pi / 180))
      (R.rho * Real.sqrt (Vx ^ 2 + Vy ^ 2) * R.chord i / R.mu)) := by
  obtain ⟨d, -, -, h3, -, -⟩ := solveStation_real (loads_station h hs).2
  simp only [real_deg2rad] at h3
  have hpi := Real.pi_ne_zero
  rcases secLoads_ok h3 with ⟨-, -, hl, -⟩ | ⟨h0, -⟩
  · have ha : s.loads.alpha * (Real.pi / 180) = s.phi - (s.theta + pitch * (Real.pi / 180)) := by
      rw [hl]
      simp only [secValues, stationSec, relativeWind, num_real]
      field_simp
    have hW : s.loads.W = relSpeed s.phi s.loads.a s.loads.ap Vx Vy := by
      rw [hl]
      simp only [secValues, stationSec, relativeWind, hV]
    have h10 : ((10 : ℕ) : ℝ) = 10 := by norm_num
    refine ⟨fun hO => ?_, fun h1 h2 => ?_, fun h1 => ?_, fun h1 h2 => ?_, ?_, fun hO => ?_, fun hO hit => ?_⟩
    · rw [hl]
      simp [secValues, hO, num_real]
    · have e : s.loads.W = Real.sqrt ((Vx * (1 - s.loads.a)) ^ 2 + (Vy * (1 + s.loads.ap)) ^ 2) := by
        rw [hW]
        simp only [relSpeed, num_real, h10, if_neg (not_lt.mpr h1), if_neg (not_lt.mpr h2)]
      exact ⟨e ▸ Real.sqrt_nonneg _, by rw [e, Real.sq_sqrt (by positivity)]⟩
    · rw [hW]
      simp only [relSpeed, num_real, h10, if_pos h1]
    · rw [hW]
      simp only [relSpeed, num_real, h10, if_neg (not_lt.mpr h1), if_pos h2]
    · rw [hl]
      simp only [secValues, stationSec, relativeWind]
    · rw [ha, hl]
      simp [secValues, stationSec, relativeWind, hO, num_real]
    · have hO' : (!(Omega == 0)) = true := by simp [num_real, hO]
      rw [ha, hl, hO']
      simp only [secValues, stationSec, if_true, runBEM, hit, Nat.sub_self, bemPasses, bemPass, relativeWind, relSpeed, hV, num_real,
        abs_zero, h10]
      norm_num
  · exact absurd h0 (by simp only [stationSec, hV, not_or]; exact ⟨hx, hy⟩)

/-- A successful call with nonzero inflow. -/
theorem demoRotor_loads : ∃ L, (distributedAeroLoads demoBq demoRotor 10 12 0 0).2 = .ok L ∧ L.stations.length = 3 ∧
    (rotorWind demoRotor 10 12 (0 * (Real.pi / 180)) 1).1 ≠ 0 ∧ (rotorWind demoRotor 10 12 (0 * (Real.pi / 180)) 1).2 ≠ 0 := by
  obtain ⟨L, h1, h2, -⟩ := distributedAeroLoads_finds demoBq demoBq_onlyValueError demoRotor 10 12 0 0
    (by simp [demoRotor]) rfl (by simp)
  refine ⟨L, h1, h2, ?_, ?_⟩ <;> rw [demoRotor_wind] <;> norm_num [Real.pi_ne_zero]

/-! ## C36 -/

/-- **C36** (partial) A rotor at standstill whose inflow has both components at a station carries there the load of the
section at an inflow angle of 90 degrees and the full wind speed. Missing: inflow without tangential component, for which
the claim is false, see `parked_rotor_false`. -/
theorem parked_rotor_partial (bq : RootFinder ℝ) (R R' : Rotor ℝ) (Uinf pitch az : ℝ) (L : LoadsOut ℝ)
    (h : distributedAeroLoads bq R Uinf 0 pitch az = (R', .ok L)) (i : ℕ) (s : Station ℝ) (hs : L.stations[i]? = some s)
    (Vx Vy : ℝ) (hV : rotorWind R Uinf 0 (az * (Real.pi / 180)) i = (Vx, Vy)) (hx : Vx ≠ 0) (hy : Vy ≠ 0) :
    s.phi = Real.pi / 2 ∧ s.loads.W ^ 2 = Vx ^ 2 + Vy ^ 2 ∧ s.loads.a = 0 ∧ s.loads.ap = 0 ∧
    s.loads.Np = R.rho * (Vx ^ 2 + Vy ^ 2) / 2 * R.chord i *
      ((R.af i).evaluate (Real.pi / 2 - s.theta - pitch * (Real.pi / 180)) s.loads.Re).2 ∧
    s.loads.Tp = R.rho * (Vx ^ 2 + Vy ^ 2) / 2 * R.chord i *
      ((R.af i).evaluate (Real.pi / 2 - s.theta - pitch * (Real.pi / 180)) s.loads.Re).1 := by
  obtain ⟨d, h1, -, h3, -, -⟩ := solveStation_real (loads_station h hs).2
  have hphi : s.phi = Real.pi / 2 := by
    simp only [stationPhi, num_real, decide_true, if_true, Except.ok.injEq, Prod.mk.injEq] at h1
    push_cast at h1
    exact h1.1.symm
  simp only [real_deg2rad] at h3
  have hrot : (!((0 : ℝ) == 0)) = false := by simp [num_real]
  rw [hrot, hphi] at h3
  rcases secLoads_ok h3 with ⟨-, -, hl, -⟩ | ⟨h0, -⟩
  · have hpos : 0 ≤ Vx ^ 2 + Vy ^ 2 := by positivity
    have hW : s.loads.W = Real.sqrt (Vx ^ 2 + Vy ^ 2) := by
      rw [hl]
      simp only [secValues, stationSec, hV, Bool.false_eq_true, if_false, relativeWind, relSpeed, num_real, abs_zero]
      rw [if_neg (by push_cast; norm_num), if_neg (by push_cast; norm_num)]
      ring_nf
    have hW2 : s.loads.W ^ 2 = Vx ^ 2 + Vy ^ 2 := by rw [hW, Real.sq_sqrt hpos]
    obtain ⟨f1, f2, f3, -⟩ := distributedAeroLoads_forces bq R R' Uinf 0 pitch az L h i s hs
    rw [f1, hW2, hphi, Real.cos_pi_div_two, Real.sin_pi_div_two] at f2 f3
    have hc : (s.loads.cl, s.loads.cd)
        = (R.af i).evaluate (Real.pi / 2 - s.theta - pitch * (Real.pi / 180)) s.loads.Re := by
      rw [hl]
      simp only [secValues, stationSec, Bool.false_eq_true, if_false, relativeWind]
      rw [sub_sub]
    refine ⟨hphi, hW2, by rw [hl]; simp [secValues], by rw [hl]; simp [secValues], ?_, ?_⟩
    · rw [← hc, f2]; ring
    · rw [← hc, f3]; ring
  · simp only [stationSec, hV] at h0
    exact absurd h0 (by simp [hx, hy])

/-- The sample rotor yawed by 30 degrees has both inflow components at standstill. -/
example : rotorWind { demoRotor with yaw := Real.pi / 6 } 10 0 (0 * (Real.pi / 180)) 1
    = (10 * (Real.sqrt 3 / 2), -(10 * (1 / 2))) := by
  have hc : (defineCurvature demoRotor.n demoRotor.r demoRotor.precurve demoRotor.presweep demoRotor.precone).cone 1 = 0 :=
    demoRotor_cone 1
  simp only [defineCurvature, demoRotor] at hc
  simp [rotorWind, windComponents, defineCurvature, xAz, zAz, yAz, demoRotor, shearedWind, num_real] at hc ⊢
  simp [hc]

/-- **C36** fails: a rotor at standstill facing a 10 m/s wind squarely reports zero loads although every section has drag. -/
theorem parked_rotor_false :
    ∃ (R R' : Rotor ℝ) (L : LoadsOut ℝ), distributedAeroLoads demoBq R 10 0 0 0 = (R', .ok L) ∧ R.n = 3 ∧
      (∀ i, rotorWind R 10 0 0 i = (10, 0)) ∧
      (∀ i alpha Re, 0 < R.chord 1 ∧ 0 < ((R.af i).evaluate alpha Re).2) ∧
      ∃ s, L.stations[1]? = some s ∧ s.phi = Real.pi / 2 ∧ s.loads.Np = 0 ∧ s.loads.Tp = 0 ∧ s.loads.W = 0 := by
  obtain ⟨L, h1, h2, h3⟩ := distributedAeroLoads_standstill demoBq demoRotor 10 0 0 0 rfl (by simp)
    (fun x => by simp [num_real])
  have hw : ∀ i, rotorWind demoRotor 10 0 0 i = (10, 0) := by
    intro i; rw [demoRotor_wind]; simp
  refine ⟨demoRotor, _, L, Prod.ext rfl h1, rfl, hw, ?_, ?_⟩
  · intro i alpha Re
    norm_num [demoRotor, demoAirfoil]
  · obtain ⟨s, e1, e2, -⟩ := h3 1 (by simp [demoRotor])
    obtain ⟨d, -, -, f3, -, -⟩ := solveStation_real (loads_station (Prod.ext rfl h1) e1).2
    refine ⟨s, e1, by rw [e2]; simp [num_real], ?_⟩
    have hd0 : deg2rad (0 : ℝ) = 0 := by simp [num_real]
    rw [hd0] at f3
    rcases secLoads_ok f3 with ⟨-, h0, -⟩ | ⟨-, hl⟩
    · exact absurd (by simp [stationSec, hw]) h0
    · rw [hl]; exact ⟨rfl, rfl, rfl⟩

/-! ## C43 -/

/-- **C43** In the inverse analysis the returned twist makes inflow angle minus twist minus pitch the prescribed angle of
attack, whatever inflow angle the root finder returned; that angle of attack is reported at every station whose inflow has
both components; the object keeps the returned twist. -/
theorem inverse_alpha (bq : RootFinder ℝ) (R R' : Rotor ℝ) (d : InvData ℝ) (hinv : R.inv = some d)
    (Uinf Omega pitch az : ℝ) (L : LoadsOut ℝ) (h : distributedAeroLoads bq R Uinf Omega pitch az = (R', .ok L))
    (i : ℕ) (s : Station ℝ) (hs : L.stations[i]? = some s) :
    s.phi - R'.theta i - pitch * (Real.pi / 180) = d.alpha i ∧
    ((rotorWind R Uinf Omega (az * (Real.pi / 180)) i).1 ≠ 0 →
      (rotorWind R Uinf Omega (az * (Real.pi / 180)) i).2 ≠ 0 →
      s.loads.alpha = d.alpha i * (180 / Real.pi)) := by
  obtain ⟨e, -, h2, -, -, -⟩ := solveStation_real (loads_station h hs).2
  have hth : R'.theta i = s.theta := by
    have hst := distributedAeroLoads_stations h
    unfold distributedAeroLoads at h
    simp only [hst, hinv] at h
    split_ifs at h <;> simp only [Prod.mk.injEq] at h <;> rw [← h.1] <;> simp [hs]
  have ht : s.theta = s.phi - d.alpha i - pitch * (Real.pi / 180) := by
    rw [h2]
    simp only [stationTheta, hinv, real_deg2rad]
  constructor
  · rw [hth, ht]; ring
  · intro hx hy
    obtain ⟨ha, -⟩ := distributedAeroLoads_coefficients bq R R' Uinf Omega pitch az L h i s hs ⟨hx, hy⟩
    rw [ht] at ha
    have hpi := Real.pi_ne_zero
    field_simp
    field_simp at ha
    linarith

/-- The sample rotor in inverse mode. -/
noncomputable def demoInverse : Rotor ℝ :=
  { demoRotor with inv := some ⟨fun _ => 1 / 10, fun _ => 1, fun _ => 1 / 100⟩ }

example : ∃ R' L s, distributedAeroLoads demoBq demoInverse 10 12 3 0 = (R', .ok L) ∧ L.stations[1]? = some s ∧
    s.loads.alpha = 1 / 10 * (180 / Real.pi) := by
  obtain ⟨L, h1, h2, h3⟩ := distributedAeroLoads_finds demoBq demoBq_onlyValueError demoInverse 10 12 3 0
    (by simp [demoInverse, demoRotor]) rfl (by simp)
  obtain ⟨s, hs, -⟩ := h3 1 (by simp [demoInverse, demoRotor])
  have hw := demoRotor_wind 10 12 (0 * (Real.pi / 180)) 1
  have hw' : rotorWind demoInverse 10 12 (0 * (Real.pi / 180)) 1 = (10, 12 * Real.pi / 30 * (10 + 20 * 1)) := by
    rw [show rotorWind demoInverse 10 12 (0 * (Real.pi / 180)) 1 = rotorWind demoRotor 10 12 (0 * (Real.pi / 180)) 1
      from rfl, hw]; simp
  refine ⟨_, L, s, Prod.ext rfl h1, hs, ?_⟩
  refine (inverse_alpha demoBq demoInverse _ _ rfl 10 12 3 0 L (Prod.ext rfl h1) 1 s hs).2 ?_ ?_ <;>
    rw [hw'] <;> norm_num [Real.pi_ne_zero]

/-! ## C42 -/

/-- **C42** (partial) For a straight blade (constant precurve) the inflow at a station depends on the radius of that
station only. Missing: blades with varying precurve, for which the claim is false, see `inflow_radius_false`. -/
theorem inflow_radius_partial (R : Rotor ℝ) (r' : ℕ → ℝ) (i : ℕ) (hi : i < R.n) (hn : 2 ≤ R.n) (hri : r' i = R.r i)
    (hp : R.precone ∈ Set.Ioc (-Real.pi) Real.pi) (hr : ∀ i, i + 1 < R.n → R.r i < R.r (i + 1))
    (hr' : ∀ i, i + 1 < R.n → r' i < r' (i + 1)) (hpc : ∀ i, i < R.n → R.precurve i = R.precurve 0)
    (Uinf Omega az : ℝ) : rotorWind { R with r := r' } Uinf Omega az i = rotorWind R Uinf Omega az i := by
  have h1 := cone_of_straight_blade R.n hn R.r R.precurve R.presweep R.precone hp hr hpc i hi
  have h2 := cone_of_straight_blade R.n hn r' R.precurve R.presweep R.precone hp hr' hpc i hi
  simp only [rotorWind, windComponents, h1, h2]
  simp only [defineCurvature, xAz, zAz, hri]

/-- **C42** The tangential component depends on the radius of the station only, for every blade shape. -/
theorem inflow_radius_tangential (R : Rotor ℝ) (r' : ℕ → ℝ) (i : ℕ) (hri : r' i = R.r i)
    (Uinf Omega az : ℝ) : (rotorWind { R with r := r' } Uinf Omega az i).2 = (rotorWind R Uinf Omega az i).2 := by
  simp only [rotorWind, windComponents]
  simp only [defineCurvature, xAz, zAz, hri]

example : rotorWind { demoRotor with r := fun i => 10 + 20 * (i : ℝ) ^ 2 } 10 12 0 1 = rotorWind demoRotor 10 12 0 1 := by
  refine inflow_radius_partial demoRotor _ 1 (by simp [demoRotor]) (by simp [demoRotor]) (by simp [demoRotor])
    ⟨by simp [demoRotor, Real.pi_pos], by simp [demoRotor, Real.pi_pos.le]⟩ ?_ ?_ (fun _ _ => rfl) 10 12 0
  · intro i _; simp only [demoRotor]; push_cast; linarith
  · intro i _
    push_cast
    have : (0 : ℝ) ≤ i := Nat.cast_nonneg i
    nlinarith

/-- A curved blade with stations at 10 and `10 + k`. -/
noncomputable def curvedRotor (k : ℝ) : Rotor ℝ :=
  { demoRotor with n := 2, r := (fun i => 10 + k * i), precurve := (fun i => 4 * i) }

theorem curvedRotor_wind (k : ℝ) (hk : 0 < k) :
    (rotorWind (curvedRotor k) 10 12 0 0).1 = 10 * (k / Real.sqrt (k ^ 2 + 16)) := by
  have seg : ∀ d e : ℝ, 0 < d → Real.cos (Complex.arg ⟨d, e⟩) = d / Real.sqrt (d ^ 2 + e ^ 2) := by
    intro d e hd
    have hne : (⟨d, e⟩ : ℂ) ≠ 0 := by
      intro h
      have := congrArg Complex.re h
      simp at this
      exact hd.ne' this
    rw [Complex.cos_arg hne]
    congr 1
    rw [Complex.norm_def, Complex.normSq_mk]
    congr 1
    ring
  simp only [rotorWind, windComponents, defineCurvature, coneAngle, segAngle, xAz, zAz, yAz, curvedRotor, demoRotor,
    shearedWind, num_real]
  simp
  rw [seg k (-4) hk]
  norm_num

/-- **C42** fails for a curved blade: moving the second station outwards changes the axial inflow at the first. -/
theorem inflow_radius_false :
    ∃ (R : Rotor ℝ) (r' : ℕ → ℝ), r' 0 = R.r 0 ∧ R.n = 2 ∧ R.r 0 < R.r 1 ∧ r' 0 < r' 1 ∧
      (rotorWind { R with r := r' } 10 12 0 0).1 ≠ (rotorWind R 10 12 0 0).1 := by
  refine ⟨curvedRotor 3, (curvedRotor 4).r, by simp [curvedRotor], rfl, by simp [curvedRotor], by simp [curvedRotor], ?_⟩
  rw [show rotorWind { curvedRotor 3 with r := (curvedRotor 4).r } 10 12 0 0 = rotorWind (curvedRotor 4) 10 12 0 0 from rfl,
    curvedRotor_wind 3 (by norm_num), curvedRotor_wind 4 (by norm_num)]
  have e5 : Real.sqrt (3 ^ 2 + 16) = 5 := by
    rw [show (3 : ℝ) ^ 2 + 16 = 5 ^ 2 by norm_num]
    exact Real.sqrt_sq (by norm_num)
  rw [e5]
  have e6 : Real.sqrt (4 ^ 2 + 16) < 6 := by
    rw [Real.sqrt_lt' (by norm_num)]; norm_num
  have e7 : 0 < Real.sqrt (4 ^ 2 + 16) := Real.sqrt_pos.mpr (by norm_num)
  intro hc
  have : 4 / Real.sqrt (4 ^ 2 + 16) = 3 / 5 := by linarith
  rw [div_eq_div_iff e7.ne' (by norm_num)] at this
  linarith

end Verif
