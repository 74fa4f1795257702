import Verif.Props.AttachedSolved
import Verif.Props.SwirlThrust

/-!
# Thrust over the pitch (C114)

C114 from the data of the rotor alone, and with C121 as a statement about the curve of thrust and root moment over the pitch.
-/

open Real Filter Topology

namespace Verif

/-- On a straight rotor in axial wind a station meets the same flow at every azimuth. -/
theorem StraightRotor.solvable {R : Rotor ℝ} (G : StraightRotor R) (hinv : R.inv = none) {Uinf Omega pitch : ℝ} {i : ℕ} (hi : i < R.n)
    (hre : FixedRe R i) {phi0 : ℝ} (D : Solvable R Uinf Omega pitch 0 i phi0) (az : ℝ) : Solvable R Uinf Omega pitch az i phi0 := by
  have hw : rotorWind R Uinf Omega (az * (π / 180)) i = rotorWind R Uinf Omega (0 * (π / 180)) i := by
    rw [G.wind Uinf Omega _ hi, G.wind Uinf Omega _ hi]
  have hp : ∀ p, stationPolar R Uinf Omega pitch az i p = stationPolar R Uinf Omega pitch 0 i p := fun p => by
    simp only [stationPolar, G.stationRe Uinf Omega az hi]
  obtain ⟨A, hg, h0, hl, hc, hr⟩ := D
  rw [stationResidual_const hinv hre] at hr
  refine ⟨⟨A.blades, A.hub, A.inner, A.outer, A.chord, by rw [hw]; exact A.front, by rw [hw]; exact A.sense, by simp only [hp]; exact A.flow⟩,
    fun p h => by unfold GuardFreeAngle; rw [hp]; exact hg p h, h0, by rw [hp]; exact hl, by simp only [funext hp]; exact hc, ?_⟩
  rw [stationResidual_const hinv hre, hp, hw]
  exact hr

theorem RisingStation.sub {R : Rotor ℝ} {Re : ℝ} {i : ℕ} {p q p' q' : ℝ} (h : RisingStation R Re i p q) (hp : p ≤ p') (hq : q' ≤ q) :
    RisingStation R Re i p' q' := by
  have hpi := pi_pos
  have h1 := mul_le_mul_of_nonneg_right hp (show (0 : ℝ) ≤ π / 180 by positivity)
  have h2 := mul_le_mul_of_nonneg_right hq (show (0 : ℝ) ≤ π / 180 by positivity)
  have hsub : Set.Ioc (-(R.theta i + q' * (π / 180))) (π / 2 - (R.theta i + p' * (π / 180))) ⊆
      Set.Ioc (-(R.theta i + q * (π / 180))) (π / 2 - (R.theta i + p * (π / 180))) := Set.Ioc_subset_Ioc (by linarith) (by linarith)
  obtain ⟨hl, hd⟩ := h
  exact ⟨hl.mono hsub, fun hu => by
    obtain ⟨c, hc, e⟩ := hd hu
    exact ⟨c, hc, fun a ha => e a (hsub ha)⟩⟩

/-- **C114** The same from the data alone, wake rotation on or off: thrust and blade root moment are smaller at the larger pitch if every station is solvable at both. With wake rotation
no station may brake the rotor at the larger pitch. -/
theorem evaluate_feathers_solvable (bq : RootFinder ℝ) (hbq : ExactRoots bq) (hbc : FindsCrossing bq) (R : Rotor ℝ) (cs : List (Cond ℝ)) (o : EvalOut ℝ)
    (co : Bool) (h : (evaluate bq R cs co).2 = .ok o) (m m' : ℕ) (c c' : Cond ℝ) (x x' : CondOut ℝ) (hc : cs[m]? = some c) (hx : o.conds[m]? = some x)
    (hc' : cs[m']? = some c') (hx' : o.conds[m']? = some x') (G : StraightRotor R) (hinv : R.inv = none)
    (hre : ∀ i < R.n, FixedRe R i) (hns : 0 < R.nSector) (hrho : 0 < R.rho) (hcd : R.opts.useCd = true)
    (hUU : c'.Uinf = c.Uinf) (hO : c.Omega ≠ 0) (hOO : c'.Omega = c.Omega) (hpp : c.pitch < c'.pitch)
    (hrise : ∀ i < R.n, RisingStation R (stationRe R c.Uinf c.Omega 0 i) i c.pitch c'.pitch) (phi0 phi0' : ℕ → ℝ)
    (D : ∀ i < R.n, Solvable R c.Uinf c.Omega c.pitch 0 i (phi0 i)) (D' : ∀ i < R.n, Solvable R c.Uinf c.Omega c'.pitch 0 i (phi0' i))
    (hdrive : Drives bq R c.Uinf c.Omega c'.pitch) :
    x'.acc.T.val < x.acc.T.val ∧ x'.acc.Mb.val < x.acc.Mb.val := by
  obtain ⟨L, hL, hT, -, hM, -⟩ := sector_averages h hc hx
  obtain ⟨L', hL', hT', -, hM', -⟩ := sector_averages h hc' hx'
  rw [hOO, hUU] at hL'
  have hcos := G.cos_pos
  have hn := G.n
  have hB : 0 < R.B := (D 0 (by omega)).flow.blades
  have hBr : (0 : ℝ) < R.B := by exact_mod_cast hB
  have key : ∀ k < R.nSector, ∀ i < R.n, stationArr (L' k).stations SecLoads.Np i < stationArr (L k).stations SecLoads.Np i := by
    intro k hk i hi
    obtain ⟨R1, e1⟩ : ∃ R', distributedAeroLoads bq R c.Uinf c.Omega c.pitch (k * (360 / R.nSector)) = (R', .ok (L k)) :=
      ⟨_, Prod.ext rfl (hL k hk)⟩
    obtain ⟨R2, e2⟩ : ∃ R', distributedAeroLoads bq R c.Uinf c.Omega c'.pitch (k * (360 / R.nSector)) = (R', .ok (L' k)) :=
      ⟨_, Prod.ext rfl (hL' k hk)⟩
    obtain ⟨s, hs⟩ : ∃ s, (L k).stations[i]? = some s :=
      ⟨_, List.getElem?_eq_getElem (by rw [(solveStations_ok (distributedAeroLoads_stations e1)).1]; exact hi)⟩
    obtain ⟨s', hs'⟩ : ∃ s, (L' k).stations[i]? = some s :=
      ⟨_, List.getElem?_eq_getElem (by rw [(solveStations_ok (distributedAeroLoads_stations e2)).1]; exact hi)⟩
    have E := G.solvable hinv hi (hre i hi) (D i hi) (k * (360 / R.nSector))
    have E' := G.solvable hinv hi (hre i hi) (D' i hi) (k * (360 / R.nSector))
    have S := (attached_solved hbc hinv (hre i hi) hO E e1 hs).1
    have S' := (attached_solved hbc hinv (hre i hi) hO E' e2 hs').1
    have A := E.flow
    have n := station_feathers_swirl bq hbq hinv (hre i hi) hO hrho hB A.hub A.inner A.outer A.chord A.front A.sense hpp
      (by rw [G.stationRe _ _ _ hi]; exact hrise i hi) R1 R2 _ _ e1 e2 s s' hs hs' S.solved S'.solved S.angle S.lift S.regular S'.angle S'.regular
      hcd S'.lift fun hw => hdrive hw k hk _ (hL' k hk) i s' hs'
    simpa [stationArr, hs, hs'] using n
  constructor
  · rw [hT, hT']
    refine mul_lt_mul_of_pos_left (mean_lt hns fun k hk => ?_) hBr
    simp only
    rw [(G.blade_integrals (L k)).1, (G.blade_integrals (L' k)).1]
    exact G.integral_lt fun i hi => mul_lt_mul_of_pos_right (key k hk i hi) hcos
  · rw [hM, hM']
    refine mean_lt hns fun k hk => ?_
    simp only
    rw [(G.blade_integrals (L k)).2.2, (G.blade_integrals (L' k)).2.2]
    exact G.integral_lt fun i hi => mul_lt_mul_of_pos_right (key k hk i hi) (mul_pos (G.hub.trans (G.range hi).1) hcos)

/-- **C114** The curves over the pitch at fixed wind and rotor speed: between two pitch angles at and between which every station is solvable, thrust and
blade root moment are continuous and strictly decreasing functions of the pitch. With wake rotation no station may brake the rotor in between. -/
theorem pitch_curve (bq : RootFinder ℝ) (hbq : ExactRoots bq) (hbc : FindsCrossing bq) (hbe : OnlyValueError bq) (R : Rotor ℝ) (G : StraightRotor R)
    (hinv : R.inv = none) (hd : R.derivatives = false) (hit : R.iterRe ≠ 0) (hre : ∀ i < R.n, FixedRe R i)
    (hcont : ∀ i < R.n, Continuous fun z : ℝ × ℝ => (R.af i).evaluate z.1 z.2) (hns : 0 < R.nSector) (hrho : 0 < R.rho) (hmu : R.mu ≠ 0)
    (hcd : R.opts.useCd = true)
    (hz : ∀ k < R.nSector, ∀ i < R.n, AboveGround R (k * (360 / R.nSector) * (π / 180)) i) {Uinf Omega lo hi : ℝ} (hO : Omega ≠ 0)
    (hrise : ∀ i < R.n, RisingStation R (stationRe R Uinf Omega 0 i) i lo hi) (phi0 : ℝ → ℕ → ℝ)
    (D : ∀ pitch ∈ Set.Icc lo hi, ∀ i < R.n, Solvable R Uinf Omega pitch 0 i (phi0 pitch i))
    (hdrive : ∀ pitch ∈ Set.Icc lo hi, Drives bq R Uinf Omega pitch) :
    ∃ T M : ℝ → ℝ, (∀ pitch, ∃ o x, (evaluate bq R [⟨Uinf, Omega, pitch⟩] false).2 = .ok o ∧ o.conds = [x] ∧ x.acc.T.val = T pitch ∧
        x.acc.Mb.val = M pitch) ∧
      ∀ f ∈ [T, M], ContinuousOn f (Set.Icc lo hi) ∧ StrictAntiOn f (Set.Icc lo hi) := by
  have tot : ∀ pitch : ℝ, ∃ o x, (evaluate bq R [⟨Uinf, Omega, pitch⟩] false).2 = .ok o ∧ o.conds = [x] := fun pitch => by
    obtain ⟨o, x, h1, h2, -⟩ := evaluate_total hbe R ⟨Uinf, Omega, pitch⟩ false hit hd hO hns.ne'
    exact ⟨o, x, h1, h2⟩
  choose o x ho hx using tot
  have op : ∀ {pitch : ℝ}, pitch ∈ Set.Icc lo hi → AttachedOperation bq R ⟨Uinf, Omega, pitch⟩ := fun {pitch} hp =>
    attached_operation hbc R _ hO hinv hre (fun _ i => phi0 pitch i) fun k _ i hi => G.solvable hinv hi (hre i hi) (D pitch hp i hi) _
  have cont := fun V0 : Set.Icc lo hi => attached_rotor_limit (l := 𝓝 V0) (R := fun _ : Set.Icc lo hi => R) (R0 := R) hbq
    ⟨fun _ => rfl, fun _ => rfl, fun _ => rfl, fun _ => rfl, fun _ => rfl, fun _ => rfl, fun _ => rfl, fun _ => rfl, fun _ => rfl,
      fun _ => rfl, fun _ => rfl, fun _ => rfl, fun i hi u v p q hu hv => ((hcont i hi).tendsto (p, q)).comp (hu.prodMk_nhds hv),
      fun _ _ => tendsto_const_nhds, fun _ _ => tendsto_const_nhds, tendsto_const_nhds, tendsto_const_nhds, tendsto_const_nhds, tendsto_const_nhds,
      tendsto_const_nhds, tendsto_const_nhds⟩ hmu hz
    (c := fun V => ⟨Uinf, Omega, V⟩) (c0 := ⟨Uinf, Omega, V0⟩) tendsto_const_nhds tendsto_const_nhds continuous_subtype_val.continuousAt
    (fun V => op V.2) (op V0.2) (fun V => ho V) (m := fun _ => 0) (fun _ => rfl) (x := fun V => x V) (fun V => by rw [hx V]; rfl) (ho V0) (m0 := 0) rfl
    (x0 := x V0) (by rw [hx V0]; rfl)
  have fall : ∀ {p p' : ℝ}, p ∈ Set.Icc lo hi → p' ∈ Set.Icc lo hi → p < p' → (x p').acc.T.val < (x p).acc.T.val ∧
      (x p').acc.Mb.val < (x p).acc.Mb.val := by
    intro p p' h1 h1' h2
    obtain ⟨O, hO2⟩ := evaluate_conditions_ok bq R [⟨Uinf, Omega, p⟩, ⟨Uinf, Omega, p'⟩] false (by simp) fun c hc => by
      simp only [List.mem_cons, List.not_mem_nil, or_false] at hc
      rcases hc with rfl | rfl
      · exact ⟨_, ho p⟩
      · exact ⟨_, ho p'⟩
    have F := evaluate_conditions bq R _ false O hO2
    obtain ⟨y, y', hy⟩ := List.length_eq_two.mp (evaluate_length hO2)
    rw [hy] at F
    simp only [List.forall₂_cons, List.Forall₂.nil, and_true] at F
    obtain ⟨⟨o1, e1, e2⟩, o2, e3, e4⟩ := F
    rw [ho p, Except.ok.injEq] at e1
    rw [ho p', Except.ok.injEq] at e3
    subst e1 e3
    rw [hx, List.cons.injEq] at e2 e4
    rw [e2.1, e4.1]
    exact evaluate_feathers_solvable bq hbq hbc R _ O false hO2 0 1 ⟨Uinf, Omega, p⟩ ⟨Uinf, Omega, p'⟩ y y' rfl (by rw [hy]; rfl) rfl (by rw [hy]; rfl) G hinv hre hns hrho hcd
      rfl hO rfl h2 (fun i hi => (hrise i hi).sub h1.1 h1'.2) (phi0 p) (phi0 p') (D p h1) (D p' h1') (hdrive p' h1')
  have con : ∀ {f : ℝ → ℝ}, (∀ V0 : Set.Icc lo hi, Tendsto (fun V : Set.Icc lo hi => f V) (𝓝 V0) (𝓝 (f V0))) → ContinuousOn f (Set.Icc lo hi) := fun h => by
    rw [continuousOn_iff_continuous_domRestrict, continuous_iff_continuousAt]
    exact h
  refine ⟨fun p => (x p).acc.T.val, fun p => (x p).acc.Mb.val, fun p => ⟨o p, x p, ho p, hx p, rfl, rfl⟩, fun f hf => ?_⟩
  simp only [List.mem_cons, List.not_mem_nil, or_false] at hf
  rcases hf with rfl | rfl
  · exact ⟨con fun V => (cont V).1, fun p h p' h' hp => (fall h h' hp).1⟩
  · exact ⟨con fun V => (cont V).2.2.2.2.2.2.1, fun p h p' h' hp => (fall h h' hp).2⟩

/-! ## An example -/

theorem featherRotor_solvable {pitch : ℝ} (hp : pitch ∈ Set.Icc (0 : ℝ) 10) {i : ℕ} (hi : i < featherRotor.n) :
    Solvable featherRotor 6 (30 / π) pitch 0 i (1 / 1000000) := by
  have hpi := pi_gt_three
  have hV := featherRotor_straight.wind 6 (30 / π) (0 * (π / 180)) hi
  have hc := featherRotor_straight.cos_pos
  have hr := featherRotor_straight.range hi
  have hri : 0 < featherRotor.r i := featherRotor_straight.hub.trans hr.1
  have hB : 0 < featherRotor.B := by simp [featherRotor, annulusRotor, demoRotor]
  have h0 := mul_nonneg hp.1 (show (0 : ℝ) ≤ π / 180 by positivity)
  have h1 := mul_le_mul_of_nonneg_right hp.2 (show (0 : ℝ) ≤ π / 180 by positivity)
  have hpol := fun p => featherRotor_polar 6 (30 / π) pitch 0 i p
  refine ⟨⟨hB, featherRotor_straight.hub, hr.1, hr.2, by simp only [featherRotor, annulusRotor]; positivity, by rw [hV]; positivity,
    by rw [hV]; positivity, ?_⟩, fun p h => (featherRotor_regular 6 (30 / π) pitch 0 i (lt_of_lt_of_le (by norm_num) h.1) h.2).2, ⟨le_rfl, by linarith⟩,
    by rw [hpol]; linarith [neg_one_le_sin (1 / 1000000 - pitch * (π / 180))], by simp only [funext hpol]; fun_prop, featherRotor_low le_rfl pitch 0 hi⟩
  refine attachedFlow_of_constant_drag hB featherRotor_straight.hub hr.1 hr.2 (fun a b c => ?_) fun _ => ⟨0, le_rfl, fun _ _ _ => by simp only [hpol]⟩
  simp only [hpol]
  have := sin_le_sin_of_le_of_le_pi_div_two (by linarith) (by linarith) (sub_le_sub_right b (pitch * (π / 180)))
  linarith

/-- The hypotheses of `pitch_curve` are met: the thrust of `featherRotor` at 6 m/s falls continuously as the pitch goes from 0° to 10°. -/
example : ∃ T : ℝ → ℝ, ContinuousOn T (Set.Icc 0 10) ∧ StrictAntiOn T (Set.Icc 0 10) ∧
    ∀ pitch, ∃ o x, (evaluate someRoot featherRotor [⟨6, 30 / π, pitch⟩] false).2 = .ok o ∧ o.conds = [x] ∧ x.acc.T.val = T pitch := by
  have hpi := pi_gt_three
  have hO : 30 / π ≠ 0 := by positivity
  obtain ⟨T, M, h1, h2⟩ := pitch_curve someRoot someRoot_exact someRoot_crossing someRoot_onlyValueError featherRotor featherRotor_straight rfl rfl
    (by simp [featherRotor, annulusRotor, demoRotor]) (fun _ _ => .inr fun _ _ _ => rfl) (fun i _ => by simp only [featherRotor, annulusRotor]; fun_prop)
    (by simp [featherRotor, annulusRotor, demoRotor]) (by norm_num [featherRotor, annulusRotor, demoRotor])
    (by norm_num [featherRotor, annulusRotor, demoRotor]) rfl
    (fun k _ i hi => by
      have h1 : (i : ℝ) ≤ 1 := by exact_mod_cast Nat.lt_succ_iff.mp (show i < 2 from hi)
      have h0 : (0 : ℝ) ≤ i := by positivity
      set z := (k : ℝ) * (360 / featherRotor.nSector) * (π / 180)
      have c2 := neg_one_le_cos z
      have c1 := cos_le_one z
      refine ⟨by norm_num [featherRotor, annulusRotor, demoRotor], ?_⟩
      simp only [relHeight, featherRotor, annulusRotor, demoRotor, cos_zero, sin_zero]
      rw [show 1 + ((0 * sin z + ((6 + (i : ℝ)) * 1 + 0 * 0) * cos z) * 1 - (0 * 1 - (6 + (i : ℝ)) * 0) * 0) / 90
        = (90 + (6 + (i : ℝ)) * cos z) / 90 by ring]
      refine div_pos ?_ (by norm_num)
      nlinarith)
    (Uinf := 6) (lo := 0) (hi := 10) hO (fun i _ => featherRotor_rises _ i) (fun _ _ => 1 / 1000000)
    (fun _ hp _ hi => featherRotor_solvable hp hi) fun _ _ h => absurd h (by simp [featherRotor, annulusRotor])
  exact ⟨T, (h2 T (by simp)).1, (h2 T (by simp)).2, fun p => by
    obtain ⟨o, x, a, b, c, -⟩ := h1 p
    exact ⟨o, x, a, b, c⟩⟩

end Verif
