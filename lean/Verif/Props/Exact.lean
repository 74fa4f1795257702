import Verif.Props.Induction
import Verif.Props.Constructor
import Verif.Props.Loads

/-!
# Exact conditions under which some claims hold that fail in general: C14, C29, C36, C42
-/

namespace Verif

/-! ## C29 -/

/-- A point over the last segment is on the axis just if its offsets are those of that segment. -/
theorem onAxis_last {n : ℕ} {r c s : ℕ → ℝ} (h : Increasing n r) {t y z : ℝ} (ht0 : 0 < t) (ht1 : t ≤ 1) :
    OnAxis n r c s (r (n - 2) + t * (r (n - 1) - r (n - 2)), y, z) ↔
      y = c (n - 2) + t * (c (n - 1) - c (n - 2)) ∧ z = s (n - 2) + t * (s (n - 1) - s (n - 2)) := by
  obtain ⟨hn, hr⟩ := h
  have e : n - 2 + 1 = n - 1 := by omega
  have hd : r (n - 2) < r (n - 1) := hr _ _ (by omega) (by omega)
  constructor
  · rintro ⟨k, u, hk, hu0, hu1, hp⟩
    simp only [Prod.mk.injEq] at hp
    obtain ⟨p1, p2, p3⟩ := hp
    have hkn : k = n - 2 := by
      by_contra hne
      have hk1 : r k < r (k + 1) := hr _ _ (by omega) (by omega)
      have hk2 : r (k + 1) ≤ r (n - 2) := by
        rcases eq_or_lt_of_le (show k + 1 ≤ n - 2 by omega) with q | q
        · rw [q]
        · exact (hr _ _ q (by omega)).le
      nlinarith [mul_pos ht0 (sub_pos.mpr hd), mul_le_mul_of_nonneg_right hu1 (sub_pos.mpr hk1).le]
    subst hkn
    rw [e] at p1 p2 p3
    have hu : u = t := mul_right_cancel₀ (sub_pos.mpr hd).ne' (by linarith)
    rw [hu] at p2 p3
    exact ⟨p2, p3⟩
  · rintro ⟨rfl, rfl⟩
    exact ⟨n - 2, t, by omega, ht0.le, ht1, by rw [e]⟩

/-- **C29** The exact condition: the last station stays on the blade axis if and only if, for each of the two offsets, the blade is
straight in its last segment or the offset of the tip coincides with that of the last station just when the radius does. -/
theorem build_axis_iff (x : CCArgs ℝ) (h : Increasing x.n x.r) (c s : ℕ → ℝ) (hc : x.precurve = some c) (hs : x.presweep = some s) :
    ∃ R, x.build = .ok R ∧
      (OnAxis x.n x.r c s (R.r (x.n - 1), R.precurve (x.n - 1), R.presweep (x.n - 1)) ↔
        (c (x.n - 2) = c (x.n - 1) ∨ (x.Rtip = x.r (x.n - 1) ↔ x.precurveTip = c (x.n - 1))) ∧
        (s (x.n - 2) = s (x.n - 1) ∨ (x.Rtip = x.r (x.n - 1) ↔ x.presweepTip = s (x.n - 1)))) := by
  obtain ⟨R, h1, -, -, -, h5, h6, h7, -⟩ := build_arrays x h
  obtain ⟨b1, b2⟩ := tipFrac_bounds h
  obtain ⟨-, h6⟩ := h6 c hc
  obtain ⟨-, h7⟩ := h7 s hs
  have hn := h.1
  have h0 : x.n - 1 ≠ 0 := by omega
  refine ⟨R, h1, ?_⟩
  set t := tipFrac x.n x.r
  have t0 : 0 < t := by linarith
  -- an offset moved or not, on the last segment at `t` or at its end
  have key : ∀ (f : ℕ → ℝ) (p : ℝ), (((if p = f (x.n - 1) then f (x.n - 2) + t * (f (x.n - 1) - f (x.n - 2)) else f (x.n - 1)) =
        f (x.n - 2) + t * (f (x.n - 1) - f (x.n - 2)) ↔ f (x.n - 2) = f (x.n - 1) ∨ p = f (x.n - 1)) ∧
      ((if p = f (x.n - 1) then f (x.n - 2) + t * (f (x.n - 1) - f (x.n - 2)) else f (x.n - 1)) = f (x.n - 1) ↔
        f (x.n - 2) = f (x.n - 1) ∨ p ≠ f (x.n - 1))) := by
    intro f p
    have hz : ∀ a b : ℝ, b = a + t * (b - a) ↔ a = b := by
      intro a b
      constructor
      · intro hab
        have : (1 - t) * (b - a) = 0 := by linarith
        rcases mul_eq_zero.mp this with q | q <;> linarith
      · rintro rfl
        ring
    by_cases hp : p = f (x.n - 1)
    · rw [if_pos hp]
      refine ⟨by simp [hp], ?_⟩
      rw [eq_comm, hz]
      simp [hp]
    · rw [if_neg hp, hz]
      simp [hp]
  rw [h5, h6, h7]
  by_cases e : x.Rtip = x.r (x.n - 1)
  · simp only [e, and_self, if_true, true_and, true_iff]
    rw [onAxis_last h t0 b2.le, (key c _).1, (key s _).1]
  · simp only [e, and_false, if_false, true_and, h0, false_and, false_iff]
    have hl := onAxis_last (c := c) (s := s) h (t := 1)
      (y := if x.precurveTip = c (x.n - 1) then c (x.n - 2) + t * (c (x.n - 1) - c (x.n - 2)) else c (x.n - 1))
      (z := if x.presweepTip = s (x.n - 1) then s (x.n - 2) + t * (s (x.n - 1) - s (x.n - 2)) else s (x.n - 1)) one_pos le_rfl
    simp only [one_mul, add_sub_cancel] at hl
    rw [hl, (key c _).2, (key s _).2]

/-- Non-vacuity: a blade bent at its end whose tip offset alone coincides with that of the last station leaves the axis, the same
blade with straight end stays on it. -/
example : (∃ R, { demoArgs with Rtip := 60, presweep := some fun _ => 0 }.build = .ok R ∧
      ¬ OnAxis 3 demoArgs.r (fun i => i) (fun _ => 0) (R.r 2, R.precurve 2, R.presweep 2)) ∧
    ∃ R, { demoArgs with Rtip := 60, precurve := some fun _ => 2, presweep := some fun _ => 0 }.build = .ok R ∧
      OnAxis 3 demoArgs.r (fun _ => 2) (fun _ => 0) (R.r 2, R.precurve 2, R.presweep 2) := by
  constructor
  · obtain ⟨R, h1, h2⟩ := build_axis_iff { demoArgs with Rtip := 60, presweep := some fun _ => 0 } demoArgs_increasing
      (fun i => i) (fun _ => 0) rfl rfl
    refine ⟨R, h1, fun hA => ?_⟩
    have := (h2.mp hA).1
    norm_num [demoArgs] at this
  · obtain ⟨R, h1, h2⟩ := build_axis_iff { demoArgs with Rtip := 60, precurve := some fun _ => 2, presweep := some fun _ => 0 }
      demoArgs_increasing (fun _ => 2) (fun _ => 0) rfl rfl
    exact ⟨R, h1, h2.mpr ⟨.inl rfl, .inl rfl⟩⟩

/-! ## C36 -/

/-- **C36** The exact condition: a station at standstill carries the load of the section at 90 degrees in the full wind if and only if
both components of the wind are nonzero there or that load is zero anyway; in the other case it carries none. -/
theorem parked_rotor_iff (bq : RootFinder ℝ) (R R' : Rotor ℝ) (Uinf pitch az : ℝ) (L : LoadsOut ℝ)
    (h : distributedAeroLoads bq R Uinf 0 pitch az = (R', .ok L)) (i : ℕ) (s : Station ℝ) (hs : L.stations[i]? = some s)
    (Vx Vy cl cd : ℝ) (hV : rotorWind R Uinf 0 (az * (Real.pi / 180)) i = (Vx, Vy))
    (hc : (cl, cd) = (R.af i).evaluate (Real.pi / 2 - s.theta - pitch * (Real.pi / 180))
      (R.rho * Real.sqrt (Vx ^ 2 + Vy ^ 2) * R.chord i / R.mu)) :
    ((s.loads.Np = R.rho * (Vx ^ 2 + Vy ^ 2) / 2 * R.chord i * cd ∧ s.loads.Tp = R.rho * (Vx ^ 2 + Vy ^ 2) / 2 * R.chord i * cl) ↔
      (Vx ≠ 0 ∧ Vy ≠ 0) ∨
        (R.rho * (Vx ^ 2 + Vy ^ 2) / 2 * R.chord i * cd = 0 ∧ R.rho * (Vx ^ 2 + Vy ^ 2) / 2 * R.chord i * cl = 0)) ∧
    (¬ (Vx ≠ 0 ∧ Vy ≠ 0) → s.loads.Np = 0 ∧ s.loads.Tp = 0) := by
  by_cases hxy : Vx ≠ 0 ∧ Vy ≠ 0
  · refine ⟨?_, fun hn => absurd hxy hn⟩
    obtain ⟨-, hW2, ha, hap, hN, hT⟩ := parked_rotor_partial bq R R' Uinf pitch az L h i s hs Vx Vy hV hxy.1 hxy.2
    obtain ⟨-, hW, -, -, hRe, -⟩ := distributedAeroLoads_speed bq R R' Uinf 0 pitch az L h i s hs Vx Vy hV hxy.1 hxy.2
    obtain ⟨w0, -⟩ := hW (by rw [ha]; norm_num) (by rw [hap]; norm_num)
    have hW' : s.loads.W = Real.sqrt (Vx ^ 2 + Vy ^ 2) := by rw [← hW2, Real.sqrt_sq w0]
    rw [hRe, hW', ← hc] at hN hT
    exact iff_of_true ⟨hN, hT⟩ (.inl hxy)
  · have hz : s.loads.Np = 0 ∧ s.loads.Tp = 0 := by
      obtain ⟨d, -, -, h3, -, -⟩ := solveStation_real (loads_station h hs).2
      simp only [real_deg2rad] at h3
      rcases secLoads_ok h3 with ⟨g1, g2, -⟩ | ⟨-, hl⟩
      · simp only [stationSec, hV] at g1 g2
        exact absurd ⟨g1, g2⟩ hxy
      · rw [hl]
        exact ⟨rfl, rfl⟩
    refine ⟨?_, fun _ => hz⟩
    rw [hz.1, hz.2]
    constructor
    · rintro ⟨h1, h2⟩
      exact .inr ⟨h1.symm, h2.symm⟩
    · rintro (h1 | ⟨h1, h2⟩)
      · exact absurd h1 hxy
      · exact ⟨h1.symm, h2.symm⟩

/-- Non-vacuity: a station of the sample rotor facing the wind squarely -/
example : ∃ R' L s, distributedAeroLoads demoBq demoRotor 10 0 0 0 = (R', .ok L) ∧ L.stations[1]? = some s ∧
    rotorWind demoRotor 10 0 (0 * (Real.pi / 180)) 1 = (10, 0) ∧ s.loads.Np = 0 := by
  obtain ⟨L, h1, h2, h3⟩ := distributedAeroLoads_standstill demoBq demoRotor 10 0 0 0 rfl (by simp) (fun x => by simp [num_real])
  obtain ⟨s, e1, -⟩ := h3 1 (by simp [demoRotor])
  have hw : rotorWind demoRotor 10 0 (0 * (Real.pi / 180)) 1 = (10, 0) := by rw [demoRotor_wind]; simp
  exact ⟨_, L, s, Prod.ext rfl h1, e1, hw,
    ((parked_rotor_iff demoBq demoRotor _ 10 0 0 L (Prod.ext rfl h1) 1 s e1 10 0 _ _ hw rfl).2 (by simp)).1⟩

/-! ## C14 -/

/-- The guard at the switch, in terms of the loss factor -/
theorem buhlG3_switch (F : ℝ) : buhlG3 F (2 / 3) = 10 / 3 * F - 25 / 9 := by
  rw [buhlG3_real]
  ring

/-- Above the switch the denominator of Buhl's formula is larger than at it. -/
theorem buhlG3_above {F k : ℝ} (hF : 0 < F) (hk : 2 / 3 < k) : 10 / 3 * F - 25 / 9 < buhlG3 F k := by
  rw [← buhlG3_switch, buhlG3_real, buhlG3_real]
  nlinarith

/-- Where the guard is active just above the switch: the values tend to `1 - 1/(2F)` from above. -/
theorem axialInduction_above_guard {phi F : ℝ} (hphi : 0 < phi) (hF : 0 < F) (h1 : -(1 / 1000000) ≤ 10 / 3 * F - 25 / 9)
    (h2 : 10 / 3 * F - 25 / 9 < 1 / 1000000) :
    Filter.Tendsto (fun k => axialInduction phi k F) (nhdsWithin (2 / 3) (Set.Ioi (2 / 3))) (nhds (1 - 1 / 2 / F)) := by
  have hG2v : buhlG2 F (2 / 3) = F ^ 2 := by rw [buhlG2_real]; ring
  have hs : Real.sqrt (buhlG2 F (2 / 3)) = F := by rw [hG2v, Real.sqrt_sq hF.le]
  have hc : ContinuousAt (fun k : ℝ => 1 - 1 / 2 / Real.sqrt (buhlG2 F k)) (2 / 3) := by
    have e : (fun k : ℝ => buhlG2 F k) = fun k => 2 * F * k - (4 / 3 - F) * F := funext fun k => buhlG2_real F k
    have hc2 : ContinuousAt (fun k : ℝ => Real.sqrt (buhlG2 F k)) (2 / 3) := by
      have : Continuous fun k : ℝ => buhlG2 F k := by rw [e]; fun_prop
      exact (Real.continuous_sqrt.comp this).continuousAt
    exact (continuousAt_const.div hc2 (by rw [hs]; exact hF.ne')).const_sub 1
  have ht := hc.tendsto.mono_left (nhdsWithin_le_nhds (s := Set.Ioi (2 / 3)))
  rw [hs] at ht
  refine ht.congr' ?_
  have hcg : Continuous fun k : ℝ => buhlG3 F k := by
    have e : (fun k : ℝ => buhlG3 F k) = fun k => 2 * F * k - (25 / 9 - 2 * F) := funext fun k => buhlG3_real F k
    rw [e]
    fun_prop
  have hn : ∀ᶠ k in nhdsWithin (2 / 3 : ℝ) (Set.Ioi (2 / 3)), buhlG3 F k < 1 / 1000000 :=
    (hcg.continuousAt.eventually (gt_mem_nhds (lt_of_eq_of_lt (buhlG3_switch F) h2))).filter_mono nhdsWithin_le_nhds
  filter_upwards [hn, self_mem_nhdsWithin] with k hk hk'
  exact (axial_guard hphi hk' (abs_lt.mpr ⟨lt_of_le_of_lt h1 (buhlG3_above hF hk'), hk⟩)).symm

/-- Only the sign of the inflow angle matters. -/
theorem axialInduction_phi {phi : ℝ} (hphi : 0 < phi) (k F : ℝ) : axialInduction phi k F = axialInduction 1 k F := by
  unfold axialInduction
  rw [if_pos hphi, if_pos one_pos]

/-- **C14** The exact conditions at the switch: the induction factor is differentiable there if and only if the loss factor lies
outside `[5/6 - 3e-7, 5/6 + 3e-7)`, and continuous if and only if it does or is `5/6`. -/
theorem axialInduction_switch_iff (phi F : ℝ) (hphi : 0 < phi) (hF : 0 < F) :
    (DifferentiableAt ℝ (fun k => axialInduction phi k F) (2 / 3) ↔ F < 5 / 6 - 3 / 10000000 ∨ 5 / 6 + 3 / 10000000 ≤ F) ∧
    (ContinuousAt (fun k => axialInduction phi k F) (2 / 3) ↔ F < 5 / 6 - 3 / 10000000 ∨ F = 5 / 6 ∨ 5 / 6 + 3 / 10000000 ≤ F) := by
  have hval : axialInduction phi (2 / 3) F = 2 / 5 := by rw [axial_momentum hphi le_rfl]; norm_num
  -- outside the interval
  have hoff : F < 5 / 6 - 3 / 10000000 ∨ 5 / 6 + 3 / 10000000 ≤ F → DifferentiableAt ℝ (fun k => axialInduction phi k F) (2 / 3) :=
    fun h => (axialInduction_switch_partial phi F hphi hF (h.imp (fun h => by linarith) fun h => by linarith)).2.differentiableAt
  -- inside
  have hin : ¬ (F < 5 / 6 - 3 / 10000000 ∨ 5 / 6 + 3 / 10000000 ≤ F) →
      Filter.Tendsto (fun k => axialInduction phi k F) (nhdsWithin (2 / 3) (Set.Ioi (2 / 3))) (nhds (1 - 1 / 2 / F)) := fun h => by
    push Not at h
    exact axialInduction_above_guard hphi hF (by linarith [h.1]) (by linarith [h.2])
  have hcont : ContinuousAt (fun k => axialInduction phi k F) (2 / 3) →
      F < 5 / 6 - 3 / 10000000 ∨ F = 5 / 6 ∨ 5 / 6 + 3 / 10000000 ≤ F := by
    intro hc
    by_cases h : F < 5 / 6 - 3 / 10000000 ∨ 5 / 6 + 3 / 10000000 ≤ F
    · exact h.imp id .inr
    · have e := tendsto_nhds_unique (hin h) (hc.tendsto.mono_left nhdsWithin_le_nhds)
      rw [hval] at e
      have hF' := hF.ne'
      field_simp at e
      exact .inr (.inl (by linarith))
  refine ⟨⟨fun hd => ?_, hoff⟩, hcont, ?_⟩
  · rcases hcont hd.continuousAt with h | rfl | h
    · exact .inl h
    · refine absurd hd ?_
      simp only [axialInduction_phi hphi]
      exact axialInduction_switch_not_differentiable
    · exact .inr h
  · rintro (h | rfl | h)
    · exact (hoff (.inl h)).continuousAt
    · refine continuousAt_iff_continuous_left'_right'.mpr ⟨?_, ?_⟩
      · have hL : ContinuousAt (fun k : ℝ => k / (1 + k)) (2 / 3) :=
          continuousAt_id.div (continuousAt_const.add continuousAt_id) (by norm_num)
        exact hL.continuousWithinAt.congr (fun k hk => axial_momentum hphi (le_of_lt hk)) (axial_momentum hphi le_rfl)
      · have := hin (by norm_num)
        rw [ContinuousWithinAt, hval]
        convert this using 2
        norm_num
    · exact (hoff (.inr h)).continuousAt

/-- Non-vacuity: all three cases occur among loss factors. -/
example : DifferentiableAt ℝ (fun k => axialInduction (1 : ℝ) k 1) (2 / 3) ∧
    ¬ ContinuousAt (fun k => axialInduction (1 : ℝ) k (5 / 6 + 1 / 10000000)) (2 / 3) ∧
    ContinuousAt (fun k => axialInduction (1 : ℝ) k (5 / 6)) (2 / 3) :=
  ⟨(axialInduction_switch_iff 1 1 one_pos one_pos).1.mpr (.inr (by norm_num)),
    fun h => by have := (axialInduction_switch_iff 1 _ one_pos (by norm_num)).2.mp h; norm_num at this,
    (axialInduction_switch_iff 1 _ one_pos (by norm_num)).2.mpr (.inr (.inl rfl))⟩

/-! ## C42 -/

/-- The direction of a segment: the precone angle minus the slope of the axis. -/
theorem segAngle_slope {r pc : ℕ → ℝ} {p : ℝ} (hp : |p| < Real.pi / 2) {j : ℕ} (hr : r j < r (j + 1)) :
    segAngle (xAz r pc p) (zAz r pc p) j = p - Real.arctan ((pc (j + 1) - pc j) / (r (j + 1) - r j)) := by
  set d := r (j + 1) - r j with hd
  set e := pc (j + 1) - pc j with he
  have d0 : 0 < d := sub_pos.mpr hr
  obtain ⟨p1, p2⟩ := abs_lt.mp hp
  have a1 := Real.neg_pi_div_two_lt_arctan (e / d)
  have a2 := Real.arctan_lt_pi_div_two (e / d)
  have hs : 0 < Real.sqrt (1 + (e / d) ^ 2) := Real.sqrt_pos.mpr (by positivity)
  have hcs : d * Real.sqrt (1 + (e / d) ^ 2) * Real.cos (p - Real.arctan (e / d)) = d * Real.cos p + e * Real.sin p := by
    rw [Real.cos_sub, Real.cos_arctan, Real.sin_arctan]
    field_simp
  have hsn : d * Real.sqrt (1 + (e / d) ^ 2) * Real.sin (p - Real.arctan (e / d)) = d * Real.sin p - e * Real.cos p := by
    rw [Real.sin_sub, Real.cos_arctan, Real.sin_arctan]
    field_simp
  have key := Complex.arg_mul_cos_add_sin_mul_I (r := d * Real.sqrt (1 + (e / d) ^ 2)) (mul_pos d0 hs)
    (θ := p - Real.arctan (e / d)) ⟨by linarith, by linarith⟩
  rw [← key]
  simp only [segAngle, xAz, zAz, num_real]
  congr 1
  apply Complex.ext
  · simp only [Complex.mul_re, Complex.add_re, Complex.ofReal_re, Complex.ofReal_im, Complex.add_im, Complex.mul_im, Complex.I_re,
      Complex.I_im, ← Complex.ofReal_cos, ← Complex.ofReal_sin]
    linarith [hcs]
  · simp only [Complex.mul_re, Complex.add_re, Complex.ofReal_re, Complex.ofReal_im, Complex.add_im, Complex.mul_im, Complex.I_re,
      Complex.I_im, ← Complex.ofReal_cos, ← Complex.ofReal_sin]
    linarith [hsn]

/-- The slope of the axis between the stations `j` and `j + 1`, as an angle -/
noncomputable def axisSlope (r pc : ℕ → ℝ) (j : ℕ) : ℝ := Real.arctan ((pc (j + 1) - pc j) / (r (j + 1) - r j))

/-- The cone angle at a station, by the slopes of the segments that meet there -/
theorem cone_slopes {n : ℕ} {r pc ps : ℕ → ℝ} {p : ℝ} (h : Increasing n r) (hp : |p| < Real.pi / 2) {i : ℕ} (hi : i < n) :
    (defineCurvature n r pc ps p).cone i = p - (if i = 0 then axisSlope r pc 0 else if i = n - 1 then axisSlope r pc (n - 2)
      else (axisSlope r pc (i - 1) + axisSlope r pc i) / 2) := by
  have hs : ∀ j, j + 1 < n → segAngle (xAz r pc p) (zAz r pc p) j = p - axisSlope r pc j :=
    fun j hj => segAngle_slope hp (h.2 _ _ (Nat.lt_succ_self j) hj)
  have hn := h.1
  simp only [defineCurvature, coneAngle]
  split_ifs with h0 h1
  · exact hs 0 (by omega)
  · exact hs _ (by omega)
  · rw [hs _ (by omega), hs _ (by omega)]
    simp only [num_real]
    push_cast
    ring

/-- The slopes that enter the cone angle vanish where the neighbours have the same precurve. -/
theorem cone_local {n : ℕ} {r pc ps : ℕ → ℝ} {p : ℝ} (h : Increasing n r) (hp : |p| < Real.pi / 2) {i : ℕ} (hi : i < n)
    (hpc : ∀ j < n, j + 1 = i ∨ j = i + 1 → pc j = pc i) : (defineCurvature n r pc ps p).cone i = p := by
  have hn := h.1
  have s1 : i + 1 < n → axisSlope r pc i = 0 := fun h1 => by
    rw [axisSlope, hpc (i + 1) h1 (.inr rfl), sub_self, zero_div, Real.arctan_zero]
  have s0 : 0 < i → axisSlope r pc (i - 1) = 0 := fun h0 => by
    have e : i - 1 + 1 = i := by omega
    rw [axisSlope, e, hpc (i - 1) (by omega) (.inl e), sub_self, zero_div, Real.arctan_zero]
  rw [cone_slopes h hp hi]
  split_ifs with h0 h1
  · subst h0
    rw [s1 (by omega), sub_zero]
  · have : n - 2 = i - 1 := by omega
    rw [this, s0 (by omega), sub_zero]
  · rw [s0 (by omega), s1 (by omega)]
    ring

/-- **C42** The inflow at a station depends on the radius of that station only, if the neighbouring stations have its precurve. -/
theorem inflow_radius_local (R : Rotor ℝ) (r' : ℕ → ℝ) (i : ℕ) (hi : i < R.n) (hri : r' i = R.r i) (hp : |R.precone| < Real.pi / 2)
    (hr : Increasing R.n R.r) (hr' : Increasing R.n r') (hpc : ∀ j < R.n, j + 1 = i ∨ j = i + 1 → R.precurve j = R.precurve i)
    (Uinf Omega az : ℝ) : rotorWind { R with r := r' } Uinf Omega az i = rotorWind R Uinf Omega az i := by
  have h1 := cone_local (ps := R.presweep) hr hp hi hpc
  have h2 := cone_local (ps := R.presweep) hr' hp hi hpc
  simp only [rotorWind, windComponents, h1, h2]
  simp only [defineCurvature, xAz, zAz, hri]

/-- The axial inflow of an unswept station in axial wind -/
theorem axial_inflow {R : Rotor ℝ} {i : ℕ} (ht : R.tilt = 0) (hy : R.yaw = 0) (hs : R.shearExp = 0) (hps : R.presweep i = 0)
    (Uinf Omega az : ℝ) : (rotorWind R Uinf Omega az i).1 =
      Uinf * Real.cos ((defineCurvature R.n R.r R.precurve R.presweep R.precone).cone i) := by
  simp only [rotorWind, windComponents, ht, hy, hs, shearedWind, num_real, Real.sin_zero, Real.cos_zero, Real.rpow_zero]
  simp only [defineCurvature, yAz, hps]
  ring

private theorem three_angles {a b c : ℝ} (ha : |a| ≤ Real.pi) (hb : |b| ≤ Real.pi) (hc : |c| ≤ Real.pi) (hab : Real.cos a = Real.cos b)
    (hac : Real.cos a = Real.cos c) (n1 : a ≠ b) (n2 : a ≠ c) (n3 : b ≠ c) : False := by
  have inj := Real.injOn_cos
  have e1 : |a| = |b| := inj ⟨abs_nonneg _, ha⟩ ⟨abs_nonneg _, hb⟩ (by rw [Real.cos_abs, Real.cos_abs, hab])
  have e2 : |a| = |c| := inj ⟨abs_nonneg _, ha⟩ ⟨abs_nonneg _, hc⟩ (by rw [Real.cos_abs, Real.cos_abs, hac])
  rcases abs_eq_abs.mp e1 with q | q
  · exact n1 q
  rcases abs_eq_abs.mp e2 with q' | q'
  · exact n2 q'
  exact n3 (by linarith)

theorem axisSlope_bounds (r pc : ℕ → ℝ) (j : ℕ) : |axisSlope r pc j| < Real.pi / 2 :=
  abs_lt.mpr ⟨Real.neg_pi_div_two_lt_arctan _, Real.arctan_lt_pi_div_two _⟩

theorem cone_bound {n : ℕ} {r pc ps : ℕ → ℝ} {p : ℝ} (h : Increasing n r) (hp : |p| < Real.pi / 2) {i : ℕ} (hi : i < n) :
    |(defineCurvature n r pc ps p).cone i| ≤ Real.pi := by
  rw [cone_slopes h hp hi]
  have b := fun j => abs_lt.mp (axisSlope_bounds r pc j)
  have hp' := abs_lt.mp hp
  split_ifs with h0 h1
  · exact abs_le.mpr ⟨by linarith [(b 0).2], by linarith [(b 0).1]⟩
  · exact abs_le.mpr ⟨by linarith [(b (n - 2)).2], by linarith [(b (n - 2)).1]⟩
  · exact abs_le.mpr ⟨by linarith [(b (i - 1)).2, (b i).2], by linarith [(b (i - 1)).1, (b i).1]⟩

/-- The blade with the stations beyond `i` moved outwards -/
def outward (i : ℕ) (t : ℝ) (r : ℕ → ℝ) (j : ℕ) : ℝ := if j ≤ i then r j else r j + t

/-- The blade with the stations before `i` moved inwards -/
def inward (i : ℕ) (t : ℝ) (r : ℕ → ℝ) (j : ℕ) : ℝ := if j < i then r j - t else r j

theorem outward_increasing {n i : ℕ} {t : ℝ} {r : ℕ → ℝ} (ht : 0 ≤ t) (h : Increasing n r) : Increasing n (outward i t r) := by
  refine ⟨h.1, fun a b hab hb => ?_⟩
  have := h.2 a b hab hb
  unfold outward
  split_ifs
  · exact this
  · linarith
  · omega
  · linarith

theorem inward_increasing {n i : ℕ} {t : ℝ} {r : ℕ → ℝ} (ht : 0 ≤ t) (h : Increasing n r) : Increasing n (inward i t r) := by
  refine ⟨h.1, fun a b hab hb => ?_⟩
  have := h.2 a b hab hb
  unfold inward
  split_ifs
  · linarith
  · linarith
  · omega
  · exact this

private theorem slope_inj {e d : ℝ} (he : e ≠ 0) (hd : 0 < d) {t u : ℝ} (ht : 0 ≤ t) (hu : 0 ≤ u)
    (h : Real.arctan (e / (d + t)) = Real.arctan (e / (d + u))) : t = u := by
  have h := Real.arctan_injective h
  rw [div_eq_div_iff (by linarith) (by linarith)] at h
  have := mul_left_cancel₀ he h
  linarith

theorem outward_cone_inj {n i : ℕ} {r pc ps : ℕ → ℝ} {p t u : ℝ} (h : Increasing n r) (hp : |p| < Real.pi / 2) (hi : i + 1 < n)
    (he : pc (i + 1) ≠ pc i) (ht : 0 ≤ t) (hu : 0 ≤ u)
    (hc : (defineCurvature n (outward i t r) pc ps p).cone i = (defineCurvature n (outward i u r) pc ps p).cone i) : t = u := by
  rw [cone_slopes (outward_increasing ht h) hp (by omega), cone_slopes (outward_increasing hu h) hp (by omega)] at hc
  have e1 : ∀ t, axisSlope (outward i t r) pc i = Real.arctan ((pc (i + 1) - pc i) / (r (i + 1) - r i + t)) := by
    intro t
    rw [axisSlope, outward, outward, if_neg (by omega), if_pos le_rfl]
    congr 2
    ring
  have e2 : 0 < i → ∀ t, axisSlope (outward i t r) pc (i - 1) = axisSlope r pc (i - 1) := by
    intro h0 t
    rw [axisSlope, axisSlope, outward, outward, if_pos (by omega), if_pos (by omega)]
  refine slope_inj (sub_ne_zero.mpr he) (sub_pos.mpr (h.2 i (i + 1) (by omega) hi)) ht hu ?_
  rw [← e1, ← e1]
  split_ifs at hc with h0 h1
  · subst h0
    linarith
  · omega
  · rw [e2 (by omega), e2 (by omega)] at hc
    linarith

theorem inward_cone_inj {n i : ℕ} {r pc ps : ℕ → ℝ} {p t u : ℝ} (h : Increasing n r) (hp : |p| < Real.pi / 2) (hi : i + 1 < n)
    (he : pc i ≠ pc (i + 1)) (ht : 0 ≤ t) (hu : 0 ≤ u)
    (hc : (defineCurvature n (inward (i + 1) t r) pc ps p).cone (i + 1) = (defineCurvature n (inward (i + 1) u r) pc ps p).cone (i + 1)) :
    t = u := by
  rw [cone_slopes (inward_increasing ht h) hp hi, cone_slopes (inward_increasing hu h) hp hi] at hc
  have e1 : ∀ t, axisSlope (inward (i + 1) t r) pc i = Real.arctan ((pc (i + 1) - pc i) / (r (i + 1) - r i + t)) := by
    intro t
    rw [axisSlope, inward, inward, if_neg (by omega), if_pos (by omega)]
    congr 2
    ring
  have e2 : ∀ t, axisSlope (inward (i + 1) t r) pc (i + 1) = axisSlope r pc (i + 1) := by
    intro t
    rw [axisSlope, axisSlope, inward, inward, if_neg (by omega), if_neg (by omega)]
  refine slope_inj (sub_ne_zero.mpr he.symm) (sub_pos.mpr (h.2 i (i + 1) (by omega) hi)) ht hu ?_
  rw [← e1, ← e1]
  rw [if_neg (Nat.succ_ne_zero i), if_neg (Nat.succ_ne_zero i)] at hc
  split_ifs at hc with h1
  · have : n - 2 = i := by omega
    rw [this] at hc
    linarith
  · rw [e2, e2, Nat.add_sub_cancel] at hc
    linarith

/-- **C42** The exact condition in axial wind: the inflow at an unswept station is the same for all increasing radii of the other
stations if and only if the neighbouring stations have its precurve. -/
theorem inflow_radius_iff (R : Rotor ℝ) (i : ℕ) (hi : i < R.n) (hp : |R.precone| < Real.pi / 2) (hr : Increasing R.n R.r)
    (ht : R.tilt = 0) (hy : R.yaw = 0) (hs : R.shearExp = 0) (hps : R.presweep i = 0) (Uinf Omega az : ℝ) (hU : Uinf ≠ 0) :
    (∀ r', Increasing R.n r' → r' i = R.r i → rotorWind { R with r := r' } Uinf Omega az i = rotorWind R Uinf Omega az i) ↔
      ∀ j < R.n, j + 1 = i ∨ j = i + 1 → R.precurve j = R.precurve i := by
  constructor
  · intro H
    have C : ∀ r', Increasing R.n r' → r' i = R.r i →
        Real.cos ((defineCurvature R.n r' R.precurve R.presweep R.precone).cone i) =
        Real.cos ((defineCurvature R.n R.r R.precurve R.presweep R.precone).cone i) := by
      intro r' h1 h2
      have := congrArg Prod.fst (H r' h1 h2)
      rw [axial_inflow (R := { R with r := r' }) ht hy hs hps, axial_inflow ht hy hs hps] at this
      exact mul_left_cancel₀ hU this
    -- three shapes of the blade with different cone angles at the station
    have fam : ∀ f : ℝ → ℕ → ℝ, (∀ t, 0 ≤ t → Increasing R.n (f t) ∧ f t i = R.r i) →
        ¬ ∀ t u, 0 ≤ t → 0 ≤ u → (defineCurvature R.n (f t) R.precurve R.presweep R.precone).cone i =
          (defineCurvature R.n (f u) R.precurve R.presweep R.precone).cone i → t = u := by
      intro f hf hinj
      have c := fun t (ht : 0 ≤ t) => C (f t) (hf t ht).1 (hf t ht).2
      have b := fun t (ht : 0 ≤ t) => cone_bound (pc := R.precurve) (ps := R.presweep) (hf t ht).1 hp hi
      refine three_angles (b 0 le_rfl) (b 1 zero_le_one) (b 2 zero_le_two) ((c 0 le_rfl).trans (c 1 zero_le_one).symm)
        ((c 0 le_rfl).trans (c 2 zero_le_two).symm) (fun e => ?_) (fun e => ?_) fun e => ?_
      · exact absurd (hinj _ _ le_rfl zero_le_one e) (by norm_num)
      · exact absurd (hinj _ _ le_rfl zero_le_two e) (by norm_num)
      · exact absurd (hinj _ _ zero_le_one zero_le_two e) (by norm_num)
    intro j hj hji
    by_contra hne
    rcases hji with rfl | rfl
    · refine fam (fun t => inward (j + 1) t R.r) (fun t h0 => ⟨inward_increasing h0 hr, ?_⟩) fun t u h0 h1 e => ?_
      · rw [inward, if_neg (by omega)]
      · exact inward_cone_inj hr hp hi hne h0 h1 e
    · refine fam (fun t => outward i t R.r) (fun t h0 => ⟨outward_increasing h0 hr, ?_⟩) fun t u h0 h1 e => ?_
      · rw [outward, if_pos le_rfl]
      · exact outward_cone_inj hr hp hj hne h0 h1 e
  · intro hpc r' h1 h2
    exact inflow_radius_local R r' i hi h2 hp hr h1 hpc Uinf Omega az

/-- Non-vacuity: the sample rotor satisfies the condition at its second station, the curved one not at its first. -/
example : (∀ r', Increasing 3 r' → r' 1 = demoRotor.r 1 →
      rotorWind { demoRotor with r := r' } 10 12 0 1 = rotorWind demoRotor 10 12 0 1) ∧
    ¬ ∀ r', Increasing 2 r' → r' 0 = (curvedRotor 3).r 0 →
      rotorWind { curvedRotor 3 with r := r' } 10 12 0 0 = rotorWind (curvedRotor 3) 10 12 0 0 := by
  have i3 : Increasing 3 demoRotor.r := ⟨by norm_num, fun i j hij _ => by
    have : (i : ℝ) < j := by exact_mod_cast hij
    simp only [demoRotor]
    linarith⟩
  have i2 : Increasing 2 (curvedRotor 3).r := ⟨by norm_num, fun i j hij _ => by
    have : (i : ℝ) < j := by exact_mod_cast hij
    simp only [curvedRotor]
    linarith⟩
  have hpi := Real.pi_pos
  constructor
  · exact (inflow_radius_iff demoRotor 1 (by simp [demoRotor]) (by simp [demoRotor, hpi]) i3 rfl rfl rfl rfl 10 12 0 (by norm_num)).mpr
      fun _ _ _ => rfl
  · intro h
    have := (inflow_radius_iff (curvedRotor 3) 0 (by simp [curvedRotor]) (by simp [curvedRotor, demoRotor, hpi]) i2 rfl rfl rfl rfl 10 12 0
      (by norm_num)).mp h 1 (by simp [curvedRotor]) (.inr rfl)
    norm_num [curvedRotor] at this

end Verif
