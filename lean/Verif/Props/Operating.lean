import Verif.Props.PitchCurve

/-!
# Operating points on the curves (C114, C121, C122)

The coefficients vary continuously with the loads, and each level of power or thrust on the curves of C122 and C114 is met at exactly one wind speed or
pitch angle.
-/

open Real Filter Topology

namespace Verif

/-! ## Coefficients -/

/-- **C121** With `coefficients=True` the coefficients of the rotor vary continuously, too: power, thrust, side forces, torque, hub moments and root
moment over dynamic pressure, area and radius, away from zero wind, density and radius. -/
theorem attached_coefficients_limit {ι : Type*} {l : Filter ι} {bq : RootFinder ℝ} {R : ι → Rotor ℝ} {R0 : Rotor ℝ} (hbq : ExactRoots bq)
    (T : RotorTends l R R0) (hmu : R0.mu ≠ 0)
    (hz : ∀ k < R0.nSector, ∀ i < R0.n, AboveGround R0 (k * (360 / R0.nSector) * (π / 180)) i) {c : ι → Cond ℝ} {c0 : Cond ℝ}
    (hU : Tendsto (fun n => (c n).Uinf) l (𝓝 c0.Uinf)) (hO : Tendsto (fun n => (c n).Omega) l (𝓝 c0.Omega))
    (hp : Tendsto (fun n => (c n).pitch) l (𝓝 c0.pitch)) (A : ∀ n, AttachedOperation bq (R n) (c n)) (A0 : AttachedOperation bq R0 c0)
    {cs : ι → List (Cond ℝ)} {o : ι → EvalOut ℝ} {m : ι → ℕ} {x : ι → CondOut ℝ} {cs0 : List (Cond ℝ)} {o0 : EvalOut ℝ}
    {m0 : ℕ} {x0 : CondOut ℝ} (h : ∀ n, (evaluate bq (R n) (cs n) true).2 = .ok (o n)) (hc : ∀ n, (cs n)[m n]? = some (c n))
    (hx : ∀ n, (o n).conds[m n]? = some (x n)) (h0 : (evaluate bq R0 cs0 true).2 = .ok o0) (hc0 : cs0[m0]? = some c0) (hx0 : o0.conds[m0]? = some x0)
    (hR : Tendsto (fun n => (R n).rotorR) l (𝓝 R0.rotorR)) (hR0 : R0.rotorR ≠ 0) (hrho0 : R0.rho ≠ 0) (hU0 : c0.Uinf ≠ 0) :
    ∃ (C : ι → Coefs ℝ) (C0 : Coefs ℝ), (∀ n, (x n).C = some (C n)) ∧ x0.C = some C0 ∧
      ∀ f ∈ [Coefs.CP, Coefs.CT, Coefs.CY, Coefs.CZ, Coefs.CQ, Coefs.CMy, Coefs.CMz, Coefs.CMb],
        Tendsto (fun n => (f (C n)).val) l (𝓝 (f C0).val) := by
  obtain ⟨tT, tY, tZ, tQ, tMy, tMz, tMb, tP⟩ := attached_rotor_limit hbq T hmu hz hU hO hp A A0 h hc hx h0 hc0 hx0
  choose hP C hC e1 e2 e3 e4 e5 e6 e7 e8 using fun n => power_coefficients (h n) (hc n) (hx n)
  obtain ⟨hP0, C0, hC0, d1, d2, d3, d4, d5, d6, d7, d8⟩ := power_coefficients h0 hc0 hx0
  refine ⟨C, C0, hC, hC0, ?_⟩
  have hpi := pi_ne_zero
  have tq : Tendsto (fun n => (R n).rho * (c n).Uinf ^ 2 / 2 * (π * (R n).rotorR ^ 2)) l (𝓝 (R0.rho * c0.Uinf ^ 2 / 2 * (π * R0.rotorR ^ 2))) :=
    ((T.rho.mul (hU.pow 2)).div_const 2).mul ((hR.pow 2).const_mul π)
  have n0 : R0.rho * c0.Uinf ^ 2 / 2 * (π * R0.rotorR ^ 2) ≠ 0 := by positivity
  have tm := tq.mul hR
  have m0 := mul_ne_zero n0 hR0
  intro f hf
  simp only [List.mem_cons, List.not_mem_nil, or_false] at hf
  rcases hf with rfl | rfl | rfl | rfl | rfl | rfl | rfl | rfl
  · simp only [e1, d1]; exact tP.div (tq.mul hU) (mul_ne_zero n0 hU0)
  · simp only [e2, d2]; exact tT.div tq n0
  · simp only [e3, d3]; exact tY.div tq n0
  · simp only [e4, d4]; exact tZ.div tq n0
  · simp only [e5, d5]; exact tQ.div tm m0
  · simp only [e6, d6]; exact tMy.div tm m0
  · simp only [e7, d7]; exact tMz.div tm m0
  · simp only [e8, d8]; exact tMb.div tm m0

/-! ## Levels -/

private theorem one_level_up {f : ℝ → ℝ} {a b y : ℝ} (hab : a ≤ b) (hc : ContinuousOn f (Set.Icc a b)) (hm : StrictMonoOn f (Set.Icc a b))
    (hy : f a ≤ y) (hy' : y ≤ f b) : ∃! u, u ∈ Set.Icc a b ∧ f u = y := by
  obtain ⟨u, hu, e⟩ := intermediate_value_Icc hab hc ⟨hy, hy'⟩
  exact ⟨u, ⟨hu, e⟩, fun v hv => hm.injOn hv.1 hu (hv.2.trans e.symm)⟩

private theorem one_level_down {f : ℝ → ℝ} {a b y : ℝ} (hab : a ≤ b) (hc : ContinuousOn f (Set.Icc a b)) (hm : StrictAntiOn f (Set.Icc a b))
    (hy : y ≤ f a) (hy' : f b ≤ y) : ∃! u, u ∈ Set.Icc a b ∧ f u = y := by
  obtain ⟨u, hu, e⟩ := intermediate_value_Icc' hab hc ⟨hy', hy⟩
  exact ⟨u, ⟨hu, e⟩, fun v hv => hm.injOn hv.1 hu (hv.2.trans e.symm)⟩

private theorem same_output {bq : RootFinder ℝ} {R : Rotor ℝ} {c : Cond ℝ} {g : CondOut ℝ → ℝ} {y : ℝ}
    (h : ∃ o x, (evaluate bq R [c] false).2 = .ok o ∧ o.conds = [x] ∧ g x = y) {o : EvalOut ℝ} {x : CondOut ℝ}
    (ho : (evaluate bq R [c] false).2 = .ok o) (hx : o.conds = [x]) : g x = y := by
  obtain ⟨o', x', h1, h2, h3⟩ := h
  rw [ho, Except.ok.injEq] at h1
  subst h1
  rw [hx, List.cons.injEq] at h2
  rw [h2.1]
  exact h3

/-- **C122** The rated wind speed: every power between those reported at two wind speeds is reported at exactly one wind speed between them. -/
theorem rated_speed (bq : RootFinder ℝ) (hbq : ExactRoots bq) (hbc : FindsCrossing bq) (hbe : OnlyValueError bq) (R : Rotor ℝ) (G : StraightRotor R)
    (hinv : R.inv = none) (hd : R.derivatives = false) (hit : R.iterRe ≠ 0) (hre : ∀ i < R.n, (R.af i).ReIndependent)
    (hcont : ∀ i < R.n, Continuous fun z : ℝ × ℝ => (R.af i).evaluate z.1 z.2) (hB : 0 < R.B) (hns : 0 < R.nSector) (hrho : 0 < R.rho) (hmu : R.mu ≠ 0)
    (hchord : ∀ i < R.n, 0 < R.chord i) (hz : ∀ k < R.nSector, ∀ i < R.n, AboveGround R (k * (360 / R.nSector) * (π / 180)) i)
    {U0 Omega pitch : ℝ} (hU : 0 < U0) (hO : 0 < Omega) (phi0 : ℕ → ℝ) (D : ∀ i < R.n, Solvable R U0 Omega pitch 0 i (phi0 i))
    (hdrag : ∀ i < R.n, DragPolar (fun p => (pitchedPolar R pitch i p).1) (fun p => (pitchedPolar R pitch i p).2))
    (hone : ∀ i < R.n, RegularPitched R pitch i (1 / 1000000)) (hlift : ∀ i < R.n, 0 < (pitchedPolar R pitch i (phi0 i)).1)
    (hdrive : ∀ i < R.n, (pitchedPolar R pitch i (phi0 i)).2 * cos (phi0 i) ≤ (pitchedPolar R pitch i (phi0 i)).1 * sin (phi0 i))
    {U1 U2 : ℝ} (h01 : U0 ≤ U1) (h12 : U1 ≤ U2) {o1 o2 : EvalOut ℝ} {x1 x2 : CondOut ℝ} (e1 : (evaluate bq R [⟨U1, Omega, pitch⟩] false).2 = .ok o1)
    (hx1 : o1.conds = [x1]) (e2 : (evaluate bq R [⟨U2, Omega, pitch⟩] false).2 = .ok o2) (hx2 : o2.conds = [x2]) {P : ℝ} (hP1 : x1.P.val ≤ P)
    (hP2 : P ≤ x2.P.val) :
    ∃! U, U ∈ Set.Icc U1 U2 ∧ ∃ o x, (evaluate bq R [⟨U, Omega, pitch⟩] false).2 = .ok o ∧ o.conds = [x] ∧ x.P.val = P := by
  obtain ⟨_, _, _, F, h1, h2⟩ := power_curve bq hbq hbc hbe R G hinv hd hit hre hcont hB hns hrho hmu hchord hz hU hO phi0 D hdrag hone hlift hdrive
  have hF : ∀ U, ∃ o x, (evaluate bq R [⟨U, Omega, pitch⟩] false).2 = .ok o ∧ o.conds = [x] ∧ x.P.val = F U := fun U => by
    obtain ⟨o, x, a, b, -, -, -, d⟩ := h1 U
    exact ⟨o, x, a, b, d⟩
  obtain ⟨hc, hm⟩ := h2 F (by simp)
  have hsub : Set.Icc U1 U2 ⊆ Set.Ici U0 := fun U h => h01.trans h.1
  rw [same_output (g := fun x => x.P.val) (hF U1) e1 hx1] at hP1
  rw [same_output (g := fun x => x.P.val) (hF U2) e2 hx2] at hP2
  obtain ⟨U, ⟨hU1, e⟩, huniq⟩ := one_level_up h12 (hc.mono hsub) (hm.mono hsub) hP1 hP2
  refine ⟨U, ⟨hU1, by rw [← e]; exact hF U⟩, fun V hV => huniq V ⟨hV.1, ?_⟩⟩
  obtain ⟨hV1, o, x, a, b, d⟩ := hV
  exact (same_output (g := fun x => x.P.val) (hF V) a b).symm.trans d

/-- **C114** Pitch control: every thrust between those reported at two pitch angles is reported at exactly one pitch angle between them. -/
theorem pitch_for_thrust (bq : RootFinder ℝ) (hbq : ExactRoots bq) (hbc : FindsCrossing bq) (hbe : OnlyValueError bq) (R : Rotor ℝ) (G : StraightRotor R)
    (hinv : R.inv = none) (hd : R.derivatives = false) (hit : R.iterRe ≠ 0) (hre : ∀ i < R.n, FixedRe R i)
    (hcont : ∀ i < R.n, Continuous fun z : ℝ × ℝ => (R.af i).evaluate z.1 z.2) (hns : 0 < R.nSector) (hrho : 0 < R.rho) (hmu : R.mu ≠ 0)
    (hcd : R.opts.useCd = true)
    (hz : ∀ k < R.nSector, ∀ i < R.n, AboveGround R (k * (360 / R.nSector) * (π / 180)) i) {Uinf Omega lo hi : ℝ} (hO : Omega ≠ 0) (hlh : lo ≤ hi)
    (hrise : ∀ i < R.n, RisingStation R (stationRe R Uinf Omega 0 i) i lo hi) (phi0 : ℝ → ℕ → ℝ)
    (D : ∀ pitch ∈ Set.Icc lo hi, ∀ i < R.n, Solvable R Uinf Omega pitch 0 i (phi0 pitch i))
    (hdrive : ∀ pitch ∈ Set.Icc lo hi, Drives bq R Uinf Omega pitch) {o1 o2 : EvalOut ℝ} {x1 x2 : CondOut ℝ}
    (e1 : (evaluate bq R [⟨Uinf, Omega, lo⟩] false).2 = .ok o1) (hx1 : o1.conds = [x1]) (e2 : (evaluate bq R [⟨Uinf, Omega, hi⟩] false).2 = .ok o2)
    (hx2 : o2.conds = [x2]) {T : ℝ} (hT1 : T ≤ x1.acc.T.val) (hT2 : x2.acc.T.val ≤ T) :
    ∃! pitch, pitch ∈ Set.Icc lo hi ∧ ∃ o x, (evaluate bq R [⟨Uinf, Omega, pitch⟩] false).2 = .ok o ∧ o.conds = [x] ∧ x.acc.T.val = T := by
  obtain ⟨F, _, h1, h2⟩ := pitch_curve bq hbq hbc hbe R G hinv hd hit hre hcont hns hrho hmu hcd hz hO hrise phi0 D hdrive
  have hF : ∀ p, ∃ o x, (evaluate bq R [⟨Uinf, Omega, p⟩] false).2 = .ok o ∧ o.conds = [x] ∧ x.acc.T.val = F p := fun p => by
    obtain ⟨o, x, a, b, d, -⟩ := h1 p
    exact ⟨o, x, a, b, d⟩
  obtain ⟨hc, hm⟩ := h2 F (by simp)
  rw [same_output (g := fun x => x.acc.T.val) (hF lo) e1 hx1] at hT1
  rw [same_output (g := fun x => x.acc.T.val) (hF hi) e2 hx2] at hT2
  obtain ⟨p, ⟨hp, e⟩, huniq⟩ := one_level_down hlh hc hm hT1 hT2
  refine ⟨p, ⟨hp, by rw [← e]; exact hF p⟩, fun V hV => huniq V ⟨hV.1, ?_⟩⟩
  obtain ⟨hV1, o, x, a, b, d⟩ := hV
  exact (same_output (g := fun x => x.acc.T.val) (hF V) a b).symm.trans d

/-! ## Examples -/

private theorem thinRotor_above : ∀ k < thinRotor.nSector, ∀ i < thinRotor.n, AboveGround thinRotor (k * (360 / thinRotor.nSector) * (π / 180)) i := by
  intro k _ i hi
  have h1 : (i : ℝ) ≤ 1 := by exact_mod_cast Nat.lt_succ_iff.mp (show i < 2 from hi)
  have h0 : (0 : ℝ) ≤ i := by positivity
  set z := (k : ℝ) * (360 / thinRotor.nSector) * (π / 180)
  have c2 := neg_one_le_cos z
  have c1 := cos_le_one z
  refine ⟨by norm_num [thinRotor, annulusRotor, demoRotor], ?_⟩
  simp only [relHeight, thinRotor, annulusRotor, demoRotor, cos_zero, sin_zero]
  rw [show 1 + ((0 * sin z + ((6 + (i : ℝ)) * 1 + 0 * 0) * cos z) * 1 - (0 * 1 - (6 + (i : ℝ)) * 0) * 0) / 90
    = (90 + (6 + (i : ℝ)) * cos z) / 90 by ring]
  refine div_pos ?_ (by norm_num)
  nlinarith

theorem RotorTends.const {ι : Type*} (l : Filter ι) {R : Rotor ℝ} (hcont : ∀ i < R.n, Continuous fun z : ℝ × ℝ => (R.af i).evaluate z.1 z.2) :
    RotorTends l (fun _ => R) R :=
  ⟨fun _ => rfl, fun _ => rfl, fun _ => rfl, fun _ => rfl, fun _ => rfl, fun _ => rfl, fun _ => rfl, fun _ => rfl, fun _ => rfl,
    fun _ => rfl, fun _ => rfl, fun _ => rfl, fun i hi _ _ p q hu hv => ((hcont i hi).tendsto (p, q)).comp (hu.prodMk_nhds hv),
    fun _ _ => tendsto_const_nhds, fun _ _ => tendsto_const_nhds, tendsto_const_nhds, tendsto_const_nhds, tendsto_const_nhds, tendsto_const_nhds,
    tendsto_const_nhds, tendsto_const_nhds⟩

/-- The hypotheses of `attached_coefficients_limit` are met: the power coefficient of `thinRotor` is continuous at 8 m/s. -/
example : ∃ C : ℝ → ℝ, ContinuousWithinAt C (Set.Ici 7) 8 ∧
    ∀ U, ∃ o x K, (evaluate someRoot thinRotor [⟨U, 30 / π, 0⟩] true).2 = .ok o ∧ o.conds = [x] ∧ x.C = some K ∧ K.CP.val = C U := by
  have hpi := pi_gt_three
  have hO : 30 / π ≠ 0 := by positivity
  have hit : thinRotor.iterRe ≠ 0 := by simp [thinRotor, annulusRotor, demoRotor]
  have hns : thinRotor.nSector ≠ 0 := by simp [thinRotor, annulusRotor, demoRotor]
  have hd : thinRotor.derivatives = false := rfl
  have tot : ∀ U : ℝ, ∃ o x, (evaluate someRoot thinRotor [⟨U, 30 / π, 0⟩] true).2 = .ok o ∧ o.conds = [x] := fun U => by
    obtain ⟨o, x, h1, h2, -⟩ := evaluate_total someRoot_onlyValueError thinRotor ⟨U, 30 / π, 0⟩ true hit hd hO hns
    exact ⟨o, x, h1, h2⟩
  choose o x ho hx using tot
  have hK : ∀ U, ∃ K, (x U).C = some K := fun U => by
    obtain ⟨-, K, hK, -⟩ := power_coefficients (m := 0) (ho U) rfl (by rw [hx U]; rfl)
    exact ⟨K, hK⟩
  choose K hK using hK
  have op : ∀ V : Set.Ici (7 : ℝ), AttachedOperation someRoot thinRotor ⟨V, 30 / π, 0⟩ := fun V =>
    attached_operation someRoot_crossing thinRotor _ hO rfl (fun _ _ => .inr fun _ _ _ => rfl) (fun _ _ => π / 4) fun _ _ _ hi => thinRotor_solvable V.2 _ hi
  refine ⟨fun U => (K U).CP.val, ?_, fun U => ⟨o U, x U, K U, ho U, hx U, hK U, rfl⟩⟩
  rw [continuousWithinAt_iff_continuousAt_domRestrict _ (show (8 : ℝ) ∈ Set.Ici 7 by norm_num)]
  have hcont : ∀ i < thinRotor.n, Continuous fun z : ℝ × ℝ => (thinRotor.af i).evaluate z.1 z.2 := fun i _ => by
    simp only [thinRotor, annulusRotor]; fun_prop
  have h78 : (7 : ℝ) ≤ 8 := by norm_num
  have hmu : thinRotor.mu ≠ 0 := by norm_num [thinRotor, annulusRotor, demoRotor]
  have hrho : thinRotor.rho ≠ 0 := by norm_num [thinRotor, annulusRotor, demoRotor]
  have hrad : thinRotor.rotorR ≠ 0 := by norm_num [thinRotor, annulusRotor, demoRotor]
  have hx1 : ∀ U, (o U).conds[0]? = some (x U) := fun U => by rw [hx U]; rfl
  obtain ⟨C, C0, hC, hC0, t⟩ := attached_coefficients_limit someRoot_exact
    (.const (𝓝 (⟨8, h78⟩ : Set.Ici (7 : ℝ))) hcont) hmu thinRotor_above (c := fun V => ⟨V, 30 / π, 0⟩) (c0 := ⟨8, 30 / π, 0⟩)
    continuous_subtype_val.continuousAt tendsto_const_nhds tendsto_const_nhds op (op ⟨8, h78⟩) (fun V => ho V) (m := fun _ => 0) (fun _ => rfl)
    (fun V => hx1 V) (ho 8) (m0 := 0) rfl (hx1 8) tendsto_const_nhds hrad hrho (by norm_num)
  have eC : ∀ V : Set.Ici (7 : ℝ), C V = K V := fun V => Option.some.inj ((hC V).symm.trans (hK V))
  have eC0 : C0 = K 8 := Option.some.inj (hC0.symm.trans (hK 8))
  have := t Coefs.CP (by simp)
  simp only [eC, eC0] at this
  exact this

/-- The hypotheses of `rated_speed` are met: the mean of the powers of `risingRotor` at 1 m/s and 2 m/s is reached at one wind speed in between. -/
example : ∃ o1 x1 o2 x2, (evaluate someRoot risingRotor [⟨1, 30 / π, 0⟩] false).2 = .ok o1 ∧ o1.conds = [x1] ∧
    (evaluate someRoot risingRotor [⟨2, 30 / π, 0⟩] false).2 = .ok o2 ∧ o2.conds = [x2] ∧ ∀ P ∈ Set.Icc x1.P.val x2.P.val,
      ∃! U, U ∈ Set.Icc (1 : ℝ) 2 ∧ ∃ o x, (evaluate someRoot risingRotor [⟨U, 30 / π, 0⟩] false).2 = .ok o ∧ o.conds = [x] ∧ x.P.val = P := by
  have hpi := pi_gt_three
  have hO : 0 < 30 / π := by positivity
  have hpol : ∀ i p, pitchedPolar risingRotor 0 i p = (sin p ^ 2, 0) := fun i p => by
    simp [pitchedPolar, risingRotor, annulusRotor]
  have hs0 : 0 < sin (1 / 1000000) := sin_pos_of_pos_of_lt_pi (by norm_num) (by linarith)
  have tot : ∀ U : ℝ, ∃ o x, (evaluate someRoot risingRotor [⟨U, 30 / π, 0⟩] false).2 = .ok o ∧ o.conds = [x] := fun U => by
    obtain ⟨o, x, h1, h2, -⟩ := evaluate_total someRoot_onlyValueError risingRotor ⟨U, 30 / π, 0⟩ false (by simp [risingRotor, annulusRotor, demoRotor]) rfl
      hO.ne' (by simp [risingRotor, annulusRotor, demoRotor])
    exact ⟨o, x, h1, h2⟩
  obtain ⟨o1, x1, e1, hx1⟩ := tot 1
  obtain ⟨o2, x2, e2, hx2⟩ := tot 2
  refine ⟨o1, x1, o2, x2, e1, hx1, e2, hx2, fun P hP => ?_⟩
  exact rated_speed someRoot someRoot_exact someRoot_crossing someRoot_onlyValueError risingRotor risingRotor_straight rfl rfl
    (by simp [risingRotor, annulusRotor, demoRotor]) (fun _ _ _ _ _ => rfl) (fun i _ => by simp only [risingRotor, annulusRotor]; fun_prop)
    (by simp [risingRotor, annulusRotor, demoRotor]) (by simp [risingRotor, annulusRotor, demoRotor]) (by norm_num [risingRotor, annulusRotor, demoRotor])
    (by norm_num [risingRotor, annulusRotor, demoRotor]) (fun i _ => by simp only [risingRotor, annulusRotor]; positivity)
    (fun k _ i hi => by
      have h1 : (i : ℝ) ≤ 1 := by exact_mod_cast Nat.lt_succ_iff.mp (show i < 2 from hi)
      have h0 : (0 : ℝ) ≤ i := by positivity
      set z := (k : ℝ) * (360 / risingRotor.nSector) * (π / 180)
      have c2 := neg_one_le_cos z
      have c1 := cos_le_one z
      refine ⟨by norm_num [risingRotor, annulusRotor, demoRotor], ?_⟩
      simp only [relHeight, risingRotor, annulusRotor, demoRotor, cos_zero, sin_zero]
      rw [show 1 + ((0 * sin z + ((6 + (i : ℝ)) * 1 + 0 * 0) * cos z) * 1 - (0 * 1 - (6 + (i : ℝ)) * 0) * 0) / 90
        = (90 + (6 + (i : ℝ)) * cos z) / 90 by ring]
      refine div_pos ?_ (by norm_num)
      nlinarith)
    one_pos hO (fun _ => 1 / 1000000) (fun i hi => risingRotor_solvable le_rfl 0 hi)
    (fun i _ => by constructor <;> intros <;> simp [hpol])
    (fun i hi => by
      have D := risingRotor_solvable (U := 1) le_rfl 0 hi
      have A := D.flow
      exact regular_of_lift A.blades A.hub A.inner A.outer A.chord A.flow (by norm_num) (by linarith) D.lift (D.guard _ ⟨le_rfl, by linarith⟩))
    (fun i _ => by simp only [hpol]; positivity) (fun i _ => by simp only [hpol, zero_mul]; positivity) le_rfl (by norm_num) e1 hx1 e2 hx2 hP.1 hP.2

/-- The hypotheses of `pitch_for_thrust` are met by `featherRotor` between 0° and 10° at 6 m/s. -/
example : ∃ o1 x1 o2 x2, (evaluate someRoot featherRotor [⟨6, 30 / π, 0⟩] false).2 = .ok o1 ∧ o1.conds = [x1] ∧
    (evaluate someRoot featherRotor [⟨6, 30 / π, 10⟩] false).2 = .ok o2 ∧ o2.conds = [x2] ∧ ∀ T ∈ Set.Icc x2.acc.T.val x1.acc.T.val,
      ∃! pitch, pitch ∈ Set.Icc (0 : ℝ) 10 ∧ ∃ o x, (evaluate someRoot featherRotor [⟨6, 30 / π, pitch⟩] false).2 = .ok o ∧ o.conds = [x] ∧
        x.acc.T.val = T := by
  have hpi := pi_gt_three
  have hO : 30 / π ≠ 0 := by positivity
  have tot : ∀ p : ℝ, ∃ o x, (evaluate someRoot featherRotor [⟨6, 30 / π, p⟩] false).2 = .ok o ∧ o.conds = [x] := fun p => by
    obtain ⟨o, x, h1, h2, -⟩ := evaluate_total someRoot_onlyValueError featherRotor ⟨6, 30 / π, p⟩ false (by simp [featherRotor, annulusRotor, demoRotor]) rfl
      hO (by simp [featherRotor, annulusRotor, demoRotor])
    exact ⟨o, x, h1, h2⟩
  obtain ⟨o1, x1, e1, hx1⟩ := tot 0
  obtain ⟨o2, x2, e2, hx2⟩ := tot 10
  refine ⟨o1, x1, o2, x2, e1, hx1, e2, hx2, fun T hT => ?_⟩
  exact pitch_for_thrust someRoot someRoot_exact someRoot_crossing someRoot_onlyValueError featherRotor featherRotor_straight rfl rfl
    (by simp [featherRotor, annulusRotor, demoRotor]) (fun _ _ => .inr fun _ _ _ => rfl) (fun i _ => by simp only [featherRotor, annulusRotor]; fun_prop)
    (by simp [featherRotor, annulusRotor, demoRotor]) (by norm_num [featherRotor, annulusRotor, demoRotor])
    (by norm_num [featherRotor, annulusRotor, demoRotor]) rfl
    (fun k _ i hi => by
      have h1 : (i : ℝ) ≤ 1 := by exact_mod_cast Nat.lt_succ_iff.mp (show i < 2 from hi)
      have h0 : (0 : ℝ) ≤ i := by positivity
      set z := (k : ℝ) * (360 / featherRotor.nSector) * (π / 180)
      have c2 := neg_one_le_cos z
      have c1 := cos_le_one z
      refine ⟨by norm_num [featherRotor, annulusRotor, demoRotor], ?_⟩
      simp only [relHeight, featherRotor, annulusRotor, demoRotor, cos_zero, sin_zero]
      rw [show 1 + ((0 * sin z + ((6 + (i : ℝ)) * 1 + 0 * 0) * cos z) * 1 - (0 * 1 - (6 + (i : ℝ)) * 0) * 0) / 90
        = (90 + (6 + (i : ℝ)) * cos z) / 90 by ring]
      refine div_pos ?_ (by norm_num)
      nlinarith)
    (Uinf := 6) hO (by norm_num) (fun i _ => featherRotor_rises _ i) (fun _ _ => 1 / 1000000) (fun _ hp _ hi => featherRotor_solvable hp hi)
    (fun _ _ h => absurd h (by simp [featherRotor, annulusRotor])) e1 hx1 e2 hx2 hT.2 hT.1

end Verif
