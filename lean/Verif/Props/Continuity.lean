import Verif.Props.RotorTotal
import Verif.Props.Betz
import Mathlib.Topology.Compactness.Compact

/-!
# When the loads vary continuously (C111)
-/

namespace Verif

open Filter Topology Finset

/-! ## Specification -/

/-- What a bracketing root finder guarantees in exact arithmetic: a continuous function that does not have the same sign at both
ends is solved. -/
def FindsRoots (bq : RootFinder ℝ) : Prop :=
  ∀ (f : ℝ → ℝ) (a b : ℝ), a ≤ b → ContinuousOn f (Set.Icc a b) → f a * f b ≤ 0 → ∃ p, bq f a b = .ok p ∧ f p = 0 ∧ p ∈ Set.Icc a b

/-- The equation `f t φ = 0` has one solution between 1e-6 and 90°, at which the sign changes, and depends continuously on
the parameter `t`. -/
structure SoleSolution (f : ℝ → ℝ → ℝ) (t phi : ℝ) : Prop where
  sign : f t (1 / 1000000) * f t (Real.pi / 2) < 0
  joint : ∀ p ∈ Set.Icc (1 / 1000000) (Real.pi / 2), ContinuousAt (fun z : ℝ × ℝ => f z.1 z.2) (t, p)
  near : ∀ᶠ s in 𝓝 t, ContinuousOn (f s) (Set.Icc (1 / 1000000) (Real.pi / 2))
  unique : ∀ p ∈ Set.Icc (1 / 1000000) (Real.pi / 2), f t p = 0 → p = phi

/-- Such a root finder exists. -/
noncomputable def someRoot : RootFinder ℝ := by
  classical
  exact fun f a b => if h : ∃ p, f p = 0 ∧ p ∈ Set.Icc a b then .ok h.choose else .error .valueError

theorem someRoot_finds : FindsRoots someRoot := by
  intro f a b hab hc hs
  have h : ∃ p, f p = 0 ∧ p ∈ Set.Icc a b := by
    rcases mul_nonpos_iff.mp hs with ⟨h1, h2⟩ | ⟨h1, h2⟩
    · obtain ⟨p, hp, h0⟩ := intermediate_value_Icc' hab hc ⟨h2, h1⟩
      exact ⟨p, h0, hp⟩
    · obtain ⟨p, hp, h0⟩ := intermediate_value_Icc hab hc ⟨h1, h2⟩
      exact ⟨p, h0, hp⟩
  refine ⟨h.choose, ?_, h.choose_spec⟩
  unfold someRoot
  rw [dif_pos h]

theorem someRoot_onlyValueError : OnlyValueError someRoot := by
  intro f a b e h
  unfold someRoot at h
  split_ifs at h
  simpa using h.symm

/-! ## Helpers -/

/-- A root that is unique at `t` varies continuously there. -/
theorem root_continuousAt {f : ℝ → ℝ → ℝ} {t a b : ℝ} {P : ℝ → ℝ}
    (hf : ∀ p ∈ Set.Icc a b, ContinuousAt (fun z : ℝ × ℝ => f z.1 z.2) (t, p))
    (hu : ∀ p ∈ Set.Icc a b, f t p = 0 → p = P t)
    (hP : ∀ᶠ s in 𝓝 t, P s ∈ Set.Icc a b ∧ f s (P s) = 0) : ContinuousAt P t := by
  rw [ContinuousAt, tendsto_nhds]
  intro U hU hPt
  have hK : IsCompact (Set.Icc a b \ U) := isCompact_Icc.diff hU
  have hne := hK.eventually_forall_of_forall_eventually (x₀ := t) (P := fun s p => f s p ≠ 0) fun p hp => by
    have h0 : f t p ≠ 0 := fun h0 => hp.2 (by rw [hu p hp.1 h0]; exact hPt)
    exact (hf p hp.1).eventually_ne h0
  filter_upwards [hne, hP] with s h1 h2
  by_contra hc
  exact h1 (P s) ⟨h2.1, hc⟩ h2.2

/-- The bracket and the root near a sole solution. -/
theorem SoleSolution.solvePhi {f : ℝ → ℝ → ℝ} {t phi : ℝ} (h : SoleSolution f t phi) {bq : RootFinder ℝ} (hbq : FindsRoots bq) :
    ∀ᶠ s in 𝓝 t, ∃ p, solvePhi bq (f s) = .ok (p, false) ∧ f s p = 0 ∧ p ∈ Set.Icc (1 / 1000000) (Real.pi / 2) := by
  have hpi := Real.pi_gt_three
  have hle : (1 / 1000000 : ℝ) ≤ Real.pi / 2 := by linarith
  have hline : ∀ p ∈ Set.Icc (1 / 1000000) (Real.pi / 2), ContinuousAt (fun s => f s p) t := fun p hp =>
    ContinuousAt.comp (f := fun s : ℝ => (s, p)) (g := fun z : ℝ × ℝ => f z.1 z.2) (h.joint p hp) (by fun_prop)
  have hsign : ∀ᶠ s in 𝓝 t, f s (1 / 1000000) * f s (Real.pi / 2) < 0 :=
    ((hline _ (Set.left_mem_Icc.mpr hle)).mul (hline _ (Set.right_mem_Icc.mpr hle))).eventually (eventually_lt_nhds h.sign)
  filter_upwards [hsign, h.near] with s h1 h2
  obtain ⟨p, e1, e2, e3⟩ := hbq (f s) _ _ hle h2 h1.le
  refine ⟨p, ?_, e2, e3⟩
  unfold Verif.solvePhi
  rw [(bracket_choice (f s)).1 h1.le]
  simp only [e1]

/-- The residual the root finder sees. -/
theorem Design.stationResidual_eq {R : Rotor ℝ} (hinv : R.inv = none) (D : Design) (i : ℕ) (phi : ℝ) :
    stationResidual (D.rotor R) D.Uinf D.Omega D.pitch D.azimuth i phi = (D.sec R.n i phi).residual R (R.af i) := by
  have hi : (D.rotor R).inv = none := hinv
  simp only [stationResidual, hi, SecIn.residual, real_deg2rad]
  rw [(Design.sameCore (D := D) (R := R) (i := i) (phi := phi)).errFun]
  rfl

/-- The inflow angle of a station of a turning rotor is what `solvePhi` returns. -/
theorem Design.station_phi {R : Rotor ℝ} (hinv : R.inv = none) (hit : R.iterRe = 1) {bq : RootFinder ℝ} {D : Design} {L : LoadsOut ℝ}
    (hcall : D.call bq R = .ok L) (hO : D.Omega ≠ 0) {i : ℕ} (hi : i < R.n) :
    ∃ st, L.stations[i]? = some st ∧ solvePhi bq (fun phi => (D.sec R.n i phi).residual R (R.af i)) = .ok (st.phi, st.warned) := by
  have hc : distributedAeroLoads bq (D.rotor R) D.Uinf D.Omega D.pitch D.azimuth
      = ((distributedAeroLoads bq (D.rotor R) D.Uinf D.Omega D.pitch D.azimuth).1, .ok L) := Prod.ext rfl hcall
  obtain ⟨-, h2⟩ := solveStations_ok (distributedAeroLoads_stations hc)
  obtain ⟨st, e1, e2⟩ := h2 i hi
  refine ⟨st, e1, ?_⟩
  obtain ⟨d, h1, -⟩ := solveStation_real e2
  have hf : stationErrf (D.rotor R) (deg2rad D.pitch) (rotorWind (D.rotor R) D.Uinf D.Omega (deg2rad D.azimuth)) i
      = fun phi => (D.sec R.n i phi).residual R (R.af i) := by
    funext phi
    exact Design.stationResidual_eq hinv D i phi
  unfold stationPhi at h1
  rw [if_neg (by simpa using hO), hf] at h1
  rw [if_neg (by simp [Design.rotor, hit])] at h1
  exact h1

/-! ## C111 -/

/-- The inflow angle reported near a sole solution. -/
theorem Design.angle_continuous {bq : RootFinder ℝ} (hbq : FindsRoots bq) {R : Rotor ℝ} (hit : R.iterRe = 1) (hinv : R.inv = none)
    {D : ℝ → Design} {t : ℝ} {L : ℝ → LoadsOut ℝ} (hcall : ∀ᶠ s in 𝓝 t, (D s).call bq R = .ok (L s))
    (hO : ∀ᶠ s in 𝓝 t, (D s).Omega ≠ 0) {i : ℕ} (hi : i < R.n) {phi : ℝ}
    (hsole : SoleSolution (fun s p => ((D s).sec R.n i p).residual R (R.af i)) t phi) :
    ∃ P : ℝ → ℝ, P t = phi ∧ ContinuousAt P t ∧ (∀ᶠ s in 𝓝 t, ∃ st, (L s).stations[i]? = some st ∧ st.phi = P s ∧ st.warned = false) ∧
      ∀ᶠ s in 𝓝 t, ((D s).sec R.n i (P s)).residual R (R.af i) = 0 := by
  have hex : ∀ᶠ s in 𝓝 t, ∃ p, (∃ st, (L s).stations[i]? = some st ∧ st.phi = p ∧ st.warned = false) ∧
      ((D s).sec R.n i p).residual R (R.af i) = 0 ∧ p ∈ Set.Icc (1 / 1000000) (Real.pi / 2) := by
    filter_upwards [hcall, hO, hsole.solvePhi hbq] with s h1 h2 h3
    obtain ⟨p, e1, e2, e3⟩ := h3
    obtain ⟨st, g1, g2⟩ := Design.station_phi hinv hit h1 h2 hi
    have g3 := g2.symm.trans e1
    simp only [Except.ok.injEq, Prod.mk.injEq] at g3
    exact ⟨p, ⟨st, g1, g3⟩, e2, e3⟩
  have hch : ∀ s, ∃ p, (∃ p, (∃ st, (L s).stations[i]? = some st ∧ st.phi = p ∧ st.warned = false) ∧
      ((D s).sec R.n i p).residual R (R.af i) = 0 ∧ p ∈ Set.Icc (1 / 1000000) (Real.pi / 2)) →
      (∃ st, (L s).stations[i]? = some st ∧ st.phi = p ∧ st.warned = false) ∧
      ((D s).sec R.n i p).residual R (R.af i) = 0 ∧ p ∈ Set.Icc (1 / 1000000) (Real.pi / 2) := by
    intro s
    by_cases h : ∃ p, (∃ st, (L s).stations[i]? = some st ∧ st.phi = p ∧ st.warned = false) ∧
      ((D s).sec R.n i p).residual R (R.af i) = 0 ∧ p ∈ Set.Icc (1 / 1000000) (Real.pi / 2)
    · obtain ⟨p, hp⟩ := h
      exact ⟨p, fun _ => hp⟩
    · exact ⟨0, fun h' => absurd h' h⟩
  choose P hP using hch
  have hP' := hex.mono fun s hs => hP s hs
  have ht := hP'.self_of_nhds
  have hPt : P t = phi := hsole.unique _ ht.2.2 ht.2.1
  refine ⟨P, hPt, ?_, hP'.mono fun s h => h.1, hP'.mono fun s h => h.2.1⟩
  exact root_continuousAt (f := fun s p => ((D s).sec R.n i p).residual R (R.af i)) hsole.joint
    (fun p hp h0 => by rw [hPt]; exact hsole.unique p hp h0) (hP'.mono fun s h => ⟨h.2.2, h.2.1⟩)

/-- **C111** (partial) Where the inflow equation of a station has one solution, the loads of this station are continuous
in the design and the operating conditions, the station is solved without a warning, and the entries of the dictionaries are
the derivatives of the loads; nothing is supposed of the inflow angles nearby.  Missing: the claim without the
hypothesis of one solution, see `thrust_continuous_false`. -/
theorem loads_continuous_partial (bq : RootFinder ℝ) (hbq : FindsRoots bq) (R : Rotor ℝ) (hn : 2 ≤ R.n) (hder : R.derivatives = true)
    (hit : R.iterRe = 1) (hinv : R.inv = none) (D : ℝ → Design) (V : Design) (t : ℝ) (hV : Design.HasDeriv R.n D V t) (L : ℝ → LoadsOut ℝ)
    (hcall : ∀ᶠ s in 𝓝 t, (D s).call bq R = .ok (L s)) (i : ℕ) (hi : i < R.n) (hind : (R.af i).ReIndependent) (phi : ℝ)
    (hsole : SoleSolution (fun s p => ((D s).sec R.n i p).residual R (R.af i)) t phi) (hreg : DictRegular R (D t) i phi)
    (hr : (∀ j < R.n, j ≠ i → V.r j = 0) ∨ ∀ j < R.n, (D t).precurve j = (D t).precurve 0) :
    (∀ᶠ s in 𝓝 t, ∃ st, (L s).stations[i]? = some st ∧ st.warned = false) ∧
    ContinuousAt (fun s => stationArr (L s).stations SecLoads.Np i) t ∧
    ContinuousAt (fun s => stationArr (L s).stations SecLoads.Tp i) t ∧
    HasDerivAt (fun s => stationArr (L s).stations SecLoads.Np i) (dictApply R.n (L t).dNp V i) t ∧
    HasDerivAt (fun s => stationArr (L s).stations SecLoads.Tp i) (dictApply R.n (L t).dTp V i) t := by
  obtain ⟨P, hPt, hPc, h1, h2⟩ := Design.angle_continuous hbq hit hinv hcall
    (hV.Omega.continuousAt.eventually_ne hreg.Omega) hi hsole
  have h := loads_dictionary bq R hn hder hit hinv D V t hV L hcall i hi hind P hPc
    (h1.mono fun s h => h.imp fun st h => ⟨h.1, h.2.1⟩) h2 (by rw [hPt]; exact hreg) hr
  exact ⟨h1.mono fun s h => h.imp fun st h => ⟨h.1, h.2.2⟩, h.1.continuousAt, h.2.continuousAt, h.1, h.2⟩

/-- **C111** (partial) Where the inflow equations of all stations and sectors have one solution, thrust, side forces, torque,
moments, blade moment and power are continuous in the design and the operating conditions, and the dictionaries are their
derivatives. -/
theorem rotor_continuous_partial (bq : RootFinder ℝ) (hbq : FindsRoots bq) (R : Rotor ℝ) (hn : 2 ≤ R.n) (hder : R.derivatives = true)
    (hit : R.iterRe = 1) (hinv : R.inv = none) (npts : ℕ) (co : Bool) (D : ℝ → RotorDesign) (V : RotorDesign) (t : ℝ)
    (hV : RotorDesign.HasDeriv R.n npts D V t) (o : ℝ → EvalOut ℝ)
    (hcall : ∀ᶠ s in 𝓝 t, (D s).call bq R npts co = .ok (o s)) (m : ℕ) (hm : m < npts)
    (hind : ∀ i < R.n, (R.af i).ReIndependent) (phi : ℕ → ℕ → ℝ)
    (hsole : ∀ k < R.nSector, ∀ i < R.n,
      SoleSolution (fun s p => (((D s).cond m (k * (360 / R.nSector))).sec R.n i p).residual R (R.af i)) t (phi k i))
    (hsec : ∀ k < R.nSector, ∀ i < R.n, DictRegular R ((D t).cond m (k * (360 / R.nSector))) i (phi k i))
    (hreg : ((D t).blade (fun _ => 0) (fun _ => 0)).Regular R.n)
    (hr : (∀ j < R.n, V.r j = 0) ∨ ∀ j < R.n, (D t).precurve j = (D t).precurve 0) :
    ∀ f ∈ [fun x : CondOut ℝ => x.acc.T, fun x => x.acc.Y, fun x => x.acc.Z, fun x => x.acc.Q, fun x => x.acc.My,
        fun x => x.acc.Mz, fun x => x.acc.Mb, fun x => x.P],
      ContinuousAt (fun s => outputAt (o s) f m) t ∧
      HasDerivAt (fun s => outputAt (o s) f m) (rotorApply R.n npts (outputDict R.n (o t) f) V m) t := by
  have hok : ∀ s, (D s).call bq R npts co = .ok (o s) →
      ∀ k < R.nSector, ∃ L, ((D s).cond m (k * (360 / R.nSector))).call bq R = .ok L := by
    intro s hs k hk
    obtain ⟨x, -, ha, -⟩ := RotorDesign.entry hs hm
    obtain ⟨L, hL⟩ := (condAcc_ok_iff _ _ _).mp ⟨_, ha⟩ k hk
    refine ⟨L, ?_⟩
    rw [← RotorDesign.loads_eq]
    exact hL
  have hex : ∀ k, ∀ i, ∃ P : ℝ → ℝ, k < R.nSector → i < R.n → P t = phi k i ∧ ContinuousAt P t ∧
      (∀ᶠ s in 𝓝 t, ∀ L, ((D s).cond m (k * (360 / R.nSector))).call bq R = .ok L →
        ∃ st, L.stations[i]? = some st ∧ st.phi = P s) ∧
      ∀ᶠ s in 𝓝 t, (((D s).cond m (k * (360 / R.nSector))).sec R.n i (P s)).residual R (R.af i) = 0 := by
    intro k i
    by_cases hki : k < R.nSector ∧ i < R.n
    · have hL : ∀ s, ∃ L, (D s).call bq R npts co = .ok (o s) → ((D s).cond m (k * (360 / R.nSector))).call bq R = .ok L := fun s => by
        by_cases h : (D s).call bq R npts co = .ok (o s)
        · exact (hok s h k hki.1).imp fun L hL _ => hL
        · exact ⟨⟨[], [], []⟩, fun h' => absurd h' h⟩
      choose L hL using hL
      obtain ⟨P, h1, h2, h3, h4⟩ := Design.angle_continuous hbq hit hinv (D := fun s => (D s).cond m (k * (360 / R.nSector)))
        (L := L) (hcall.mono fun s h => hL s h)
        ((hV.cond m hm _).Omega.continuousAt.eventually_ne (hsec k hki.1 i hki.2).Omega) hki.2 (hsole k hki.1 i hki.2)
      refine ⟨P, fun _ _ => ⟨h1, h2, ?_, h4⟩⟩
      filter_upwards [hcall, h3] with s g1 g2 L' hL'
      obtain rfl : L' = L s := Except.ok.inj (hL'.symm.trans (hL s g1))
      exact g2.imp fun st h => ⟨h.1, h.2.1⟩
    · exact ⟨fun _ => 0, fun h1 h2 => absurd ⟨h1, h2⟩ hki⟩
  choose P hP using hex
  have h := rotor_dictionary_total bq R hn hder hit hinv npts co D V t hV o hcall m hm hind P (fun k hk i hi => (hP k i hk hi).2.1)
    (fun k hk i hi => (hP k i hk hi).2.2.1) (fun k hk i hi => (hP k i hk hi).2.2.2)
    (fun k hk i hi => by rw [(hP k i hk hi).1]; exact hsec k hk i hi) hreg hr
  exact fun f hf => ⟨(h f hf).continuousAt, h f hf⟩

/-! ## A rotor with several solutions

A section whose lift drops beyond an angle of attack of 7°.  Below 8.5° the inflow equation reads `tan φ (1 + k) = U / 60` with a
`k` that falls from 2/3 to 0, so that winds between 9 and 12.5 m/s have three solutions. -/

/-- The inflow angle, limited to the range where there is lift. -/
noncomputable def foldAngle (alpha : ℝ) : ℝ := max 0 (min alpha (Real.arctan (3 / 20)))

/-- The ratio of blade force to momentum. -/
noncomputable def foldK (alpha : ℝ) : ℝ := min (2 / 3) (4 - 80 / 3 * Real.tan (foldAngle alpha))

/-- The lift coefficient. -/
noncomputable def foldLift (alpha : ℝ) : ℝ :=
  40 * Real.pi * foldK alpha * Real.sin (foldAngle alpha) ^ 2 / Real.cos (foldAngle alpha)

/-- Two stations; the outer one has no chord. -/
noncomputable def foldRotor : Rotor ℝ :=
  annulusRotor (fun i => 60 + 10 * i) (fun i => 4 - 4 * i) foldLift 5 80

theorem foldAngle_cos (alpha : ℝ) : 0 < Real.cos (foldAngle alpha) := by
  have h1 := Real.arctan_lt_pi_div_two (3 / 20)
  have h2 := Real.pi_pos
  refine Real.cos_pos_of_mem_Ioo ⟨?_, ?_⟩
  · exact lt_of_lt_of_le (by linarith) (le_max_left _ _)
  · exact max_lt (by linarith) (lt_of_le_of_lt (min_le_right _ _) h1)

theorem foldAngle_continuous : Continuous foldAngle := by unfold foldAngle; fun_prop

theorem foldK_continuous : Continuous foldK := by
  unfold foldK
  refine continuous_const.min (continuous_const.sub (continuous_const.mul ?_))
  rw [continuous_iff_continuousAt]
  intro x
  exact (Real.continuousAt_tan.mpr (foldAngle_cos x).ne').comp foldAngle_continuous.continuousAt

theorem foldLift_continuous : Continuous foldLift := by
  unfold foldLift
  have h1 := foldK_continuous
  have h2 := foldAngle_continuous
  have h3 : ∀ x, Real.cos (foldAngle x) ≠ 0 := fun x => (foldAngle_cos x).ne'
  fun_prop (disch := assumption)

theorem foldAngle_tan {phi : ℝ} (h0 : 0 ≤ phi) (h1 : phi < Real.pi / 2) :
    Real.tan (foldAngle phi) = min (Real.tan phi) (3 / 20) := by
  have ha : 0 < Real.arctan (3 / 20) := by rw [Real.arctan_pos]; norm_num
  have ha2 := Real.arctan_lt_pi_div_two (3 / 20)
  have hpi := Real.pi_pos
  unfold foldAngle
  rw [max_eq_right (le_min h0 ha.le)]
  rcases le_total phi (Real.arctan (3 / 20)) with h | h
  · rw [min_eq_left h, min_eq_left]
    rw [← Real.tan_arctan (3 / 20)]
    exact Real.strictMonoOn_tan.monotoneOn ⟨by linarith, h1⟩ ⟨by linarith, ha2⟩ h
  · rw [min_eq_right h, Real.tan_arctan, min_eq_right]
    rw [← Real.tan_arctan (3 / 20)]
    exact Real.strictMonoOn_tan.monotoneOn ⟨by linarith, ha2⟩ ⟨by linarith, h1⟩ h

theorem foldK_eq {phi : ℝ} (h0 : 0 ≤ phi) (h1 : phi < Real.pi / 2) :
    foldK phi = min (2 / 3) (4 - 80 / 3 * min (Real.tan phi) (3 / 20)) := by
  unfold foldK
  rw [foldAngle_tan h0 h1]

theorem foldK_stalled {phi : ℝ} (h : Real.arctan (3 / 20) ≤ phi) : foldK phi = 0 := by
  have ha : 0 < Real.arctan (3 / 20) := by rw [Real.arctan_pos]; norm_num
  unfold foldK foldAngle
  rw [min_eq_right h, max_eq_right ha.le, Real.tan_arctan]
  norm_num

theorem foldK_range (phi : ℝ) : 0 ≤ foldK phi ∧ foldK phi ≤ 2 / 3 := by
  have ha : 0 < Real.arctan (3 / 20) := by rw [Real.arctan_pos]; norm_num
  have ha2 := Real.arctan_lt_pi_div_two (3 / 20)
  have hpi := Real.pi_pos
  refine ⟨?_, min_le_left _ _⟩
  have h : Real.tan (foldAngle phi) ≤ 3 / 20 := by
    conv_rhs => rw [← Real.tan_arctan (3 / 20)]
    refine Real.strictMonoOn_tan.monotoneOn ⟨?_, ?_⟩ ⟨by linarith, ha2⟩ ?_
    · exact lt_of_lt_of_le (by linarith) (le_max_left _ _)
    · exact max_lt (by linarith) (lt_of_le_of_lt (min_le_right _ _) ha2)
    · exact max_le ha.le (min_le_right _ _)
  unfold foldK
  exact le_min (by norm_num) (by linarith)

/-- The lift produces the ratio `foldK`. -/
theorem foldLift_force {phi : ℝ} (h0 : 0 < phi) :
    foldLift phi * Real.cos phi = 40 * Real.pi * foldK phi * Real.sin phi ^ 2 := by
  have hpi := Real.pi_pos
  rcases le_total phi (Real.arctan (3 / 20)) with h | h
  · have e : foldAngle phi = phi := by unfold foldAngle; rw [min_eq_left h, max_eq_right h0.le]
    have hc := (foldAngle_cos phi).ne'
    unfold foldLift
    rw [e] at hc ⊢
    field_simp
  · have := foldK_stalled h
    unfold foldLift
    rw [this]
    ring

private theorem fold_geometry : (0:ℝ) < 5 ∧ (5:ℝ) < 60 + 10 * ((0:ℕ):ℝ) ∧ (60:ℝ) + 10 * ((0:ℕ):ℝ) < 60 + 10 * ((1:ℕ):ℝ) ∧ (60:ℝ) + 10 * ((1:ℕ):ℝ) < 80 := by
  norm_num

theorem foldRotor_straight : StraightRotor foldRotor :=
  annulusRotor_straight fold_geometry.1 fold_geometry.2.1 fold_geometry.2.2.1 fold_geometry.2.2.2

/-- The ratio at the two stations. -/
noncomputable def stationK (i : ℕ) (phi : ℝ) : ℝ := if i = 0 then foldK phi else 0

theorem stationK_range (i : ℕ) (phi : ℝ) : 0 ≤ stationK i phi ∧ stationK i phi ≤ 2 / 3 := by
  unfold stationK
  split_ifs
  · exact foldK_range phi
  · norm_num

theorem stationK_continuous (i : ℕ) : Continuous (stationK i) := by
  unfold stationK
  split_ifs
  · exact foldK_continuous
  · exact continuous_const

theorem foldRotor_k {i : ℕ} (hi : i < 2) {phi : ℝ} (h0 : 0 < phi) (h1 : phi ≤ Real.pi / 2) :
    3 * (4 - 4 * (i:ℝ)) / (2 * Real.pi * (60 + 10 * i)) * (foldLift phi * Real.cos phi) / (4 * Real.sin phi ^ 2) = stationK i phi := by
  have hpi := Real.pi_pos
  have hs : Real.sin phi ≠ 0 := (Real.sin_pos_of_pos_of_lt_pi h0 (by linarith)).ne'
  interval_cases i
  · rw [foldLift_force h0]
    simp only [stationK, if_true]
    field_simp
    norm_num
  · simp [stationK]

theorem foldRotor_residual (U az : ℝ) {i : ℕ} (hi : i < 2) {phi : ℝ} (h0 : 0 < phi) (h1 : phi ≤ Real.pi / 2) :
    stationResidual foldRotor U (30 / Real.pi) 0 az i phi
      = Real.sin phi * (1 + stationK i phi) - U / (60 + 10 * i) * Real.cos phi := by
  have key := annulusRotor_residual (r := fun i => 60 + 10 * i) (chord := fun i => 4 - 4 * i) (cl := foldLift) fold_geometry.1 fold_geometry.2.1 fold_geometry.2.2.1 fold_geometry.2.2.2 U az hi phi
  have hk := foldRotor_k hi h0 h1
  refine key.trans ?_
  rw [hk]
  obtain ⟨k0, k1⟩ := stationK_range i phi
  generalize stationK i phi = k at *
  rw [axial_momentum h0 k1]
  simp only [bemResidual, h0, if_true]
  have e : 1 - k / (1 + k) = 1 / (1 + k) := by field_simp; ring
  rw [e]
  field_simp
  ring

/-- All stations are solved, without a warning. -/
theorem foldRotor_solve {bq : RootFinder ℝ} (hbq : FindsRoots bq) {U : ℝ} (hU : U ∈ Set.Icc 6 18) (az : ℝ) {i : ℕ} (hi : i < 2) :
    ∃ p, solvePhi bq (stationResidual foldRotor U (30 / Real.pi) 0 az i) = .ok (p, false) ∧
      stationResidual foldRotor U (30 / Real.pi) 0 az i p = 0 ∧ p ∈ Set.Icc (1 / 1000000) (Real.pi / 2) := by
  have hpi := Real.pi_gt_three
  have hle : (1 / 1000000 : ℝ) ≤ Real.pi / 2 := by linarith
  have hi0 : (0:ℝ) ≤ i := by positivity
  have hi1 : (i:ℝ) ≤ 1 := by exact_mod_cast (by omega : i ≤ 1)
  obtain ⟨U1, U2⟩ := hU
  set f := stationResidual foldRotor U (30 / Real.pi) 0 az i with hf
  have hfe : ∀ phi, 0 < phi → phi ≤ Real.pi / 2 → f phi = Real.sin phi * (1 + stationK i phi) - U / (60 + 10 * i) * Real.cos phi :=
    fun phi h0 h1 => foldRotor_residual U az hi h0 h1
  have hsign : f (1 / 1000000) * f (Real.pi / 2) ≤ 0 := by
    refine mul_nonpos_of_nonpos_of_nonneg ?_ ?_
    · rw [hfe _ (by norm_num) hle]
      have s1 : Real.sin (1 / 1000000) ≤ 1 / 1000000 := Real.sin_le (by norm_num)
      have s0 : 0 ≤ Real.sin (1 / 1000000) := Real.sin_nonneg_of_nonneg_of_le_pi (by norm_num) (by linarith)
      have c1 : 1 / 2 ≤ Real.cos (1 / 1000000) := by
        have := Real.one_sub_sq_div_two_le_cos (x := 1 / 1000000)
        norm_num at this ⊢
        linarith
      obtain ⟨k0, k1⟩ := stationK_range i (1 / 1000000)
      have u1 : 6 / 70 ≤ U / (60 + 10 * i) := div_le_div₀ (by linarith) U1 (by linarith) (by linarith)
      have h1 : Real.sin (1 / 1000000) * (1 + stationK i (1 / 1000000)) ≤ 1 / 1000000 * (1 + 2 / 3) :=
        mul_le_mul s1 (by linarith) (by linarith) (by norm_num)
      have h2 : 6 / 70 * (1 / 2) ≤ U / (60 + 10 * i) * Real.cos (1 / 1000000) :=
        mul_le_mul u1 c1 (by norm_num) (by linarith)
      norm_num at h1 h2 ⊢
      linarith
    · rw [hfe _ (by linarith) le_rfl, Real.sin_pi_div_two, Real.cos_pi_div_two]
      have := (stationK_range i (Real.pi / 2)).1
      linarith
  have hcont : ContinuousOn f (Set.Icc (1 / 1000000) (Real.pi / 2)) := by
    refine ContinuousOn.congr (f := fun phi => Real.sin phi * (1 + stationK i phi) - U / (60 + 10 * i) * Real.cos phi) ?_ ?_
    · have := stationK_continuous i
      fun_prop
    · intro phi hp
      exact hfe phi (lt_of_lt_of_le (by norm_num) hp.1) hp.2
  obtain ⟨p, e1, e2, e3⟩ := hbq f _ _ hle hcont hsign
  refine ⟨p, ?_, e2, e3⟩
  unfold solvePhi
  rw [(bracket_choice f).1 hsign]
  simp only [e1]

/-- The stations of a call. -/
theorem foldRotor_station {bq : RootFinder ℝ} (hbq : FindsRoots bq) {U : ℝ} (hU : U ∈ Set.Icc 6 18) {az : ℝ} {R' : Rotor ℝ} {L : LoadsOut ℝ}
    (h : distributedAeroLoads bq foldRotor U (30 / Real.pi) 0 az = (R', .ok L)) {i : ℕ} {s : Station ℝ} (hs : L.stations[i]? = some s) :
    s.warned = false ∧ ∃ t, 0 < t ∧ t = Real.tan s.phi ∧ 0 < s.phi ∧ s.phi < Real.pi / 2 ∧ t * (1 + stationK i s.phi) = U / (60 + 10 * i) ∧
      s.loads.Np = (if i = 0 then 80 * Real.pi * foldRotor.rho * (U ^ 2 * (foldK s.phi / (1 + foldK s.phi) ^ 2)) else 0) := by
  have hpi := Real.pi_gt_three
  have hpi0 := Real.pi_ne_zero
  have hO : 30 / Real.pi ≠ 0 := by positivity
  have hi : i < 2 := (loads_station h hs).1
  have hi0 : (0:ℝ) ≤ i := by positivity
  have hU0 : 0 < U := lt_of_lt_of_le (by norm_num) hU.1
  obtain ⟨d, h1, -⟩ := solveStation_real (loads_station h hs).2
  have hf : stationErrf foldRotor (deg2rad 0) (rotorWind foldRotor U (30 / Real.pi) (deg2rad az)) i
      = stationResidual foldRotor U (30 / Real.pi) 0 az i := rfl
  unfold stationPhi at h1
  rw [if_neg (by simp [num_real]), hf, if_neg (by simp [foldRotor, annulusRotor, demoRotor])] at h1
  obtain ⟨p, e1, e2, e3⟩ := foldRotor_solve hbq hU az hi
  have h2 := h1.symm.trans e1
  simp only [Except.ok.injEq, Prod.mk.injEq] at h2
  obtain ⟨rfl, hw⟩ := h2
  have p0 : 0 < s.phi := lt_of_lt_of_le (by norm_num) e3.1
  rw [foldRotor_residual U az hi p0 e3.2] at e2
  have hne : s.phi ≠ Real.pi / 2 := by
    intro h0
    rw [h0, Real.sin_pi_div_two, Real.cos_pi_div_two] at e2
    have := (stationK_range i (Real.pi / 2)).1
    linarith
  have p1 : s.phi < Real.pi / 2 := lt_of_le_of_ne e3.2 hne
  have hcs : 0 < Real.cos s.phi := Real.cos_pos_of_mem_Ioo ⟨by linarith, p1⟩
  have hsn : 0 < Real.sin s.phi := Real.sin_pos_of_pos_of_lt_pi p0 (by linarith)
  have ht : Real.tan s.phi * (1 + stationK i s.phi) = U / (60 + 10 * i) := by
    rw [Real.tan_eq_sin_div_cos, div_mul_eq_mul_div, div_eq_iff hcs.ne']
    linarith
  refine ⟨hw, Real.tan s.phi, Real.tan_pos_of_pos_of_lt_pi_div_two p0 p1, rfl, p0, p1, ht, ?_⟩
  have hV : rotorWind foldRotor U (30 / Real.pi) (az * (Real.pi / 180)) i = (U, 60 + 10 * (i:ℝ)) := by
    rw [foldRotor_straight.wind _ _ _ (i := i) hi]
    simp [foldRotor, annulusRotor, demoRotor, hpi0]
  have hVy : (60:ℝ) + 10 * i ≠ 0 := by positivity
  obtain ⟨hal, Re, hc⟩ := distributedAeroLoads_coefficients _ _ _ _ _ _ _ _ h i s hs (by rw [hV]; exact ⟨hU0.ne', hVy⟩)
  have hth : s.theta = 0 := by
    rw [(solveStation_real (loads_station h hs).2).choose_spec.2.1]
    rfl
  rw [hth] at hal
  have hcl : s.loads.cl = foldLift s.phi ∧ s.loads.cd = 0 := by
    rw [hal] at hc
    simpa [foldRotor, annulusRotor] using hc
  obtain ⟨-, hN, -⟩ := distributedAeroLoads_forces _ _ _ _ _ _ _ _ h i s hs
  obtain ⟨hq, -⟩ := distributedAeroLoads_forces _ _ _ _ _ _ _ _ h i s hs
  have hch : foldRotor.chord i = 4 - 4 * (i:ℝ) := rfl
  interval_cases i
  · obtain ⟨ha, hap⟩ := loads_induction h hs hO hV hU0.ne' hVy
    obtain ⟨g1, g2, -⟩ := indOut_eq (foldRotor.r 0) (foldRotor.chord 0) foldRotor.Rhub foldRotor.Rtip s.phi s.loads.cl s.loads.cd foldRotor.B U
      (60 + 10 * ((0:ℕ):ℝ)) foldRotor.opts
    have hF : lossSpec foldRotor.opts foldRotor.B (foldRotor.r 0) foldRotor.Rhub foldRotor.Rtip s.phi = 1 := by
      simp [lossSpec, foldRotor, annulusRotor]
    have hk : kSpec foldRotor.opts foldRotor.B (foldRotor.r 0) (foldRotor.chord 0) foldRotor.Rhub foldRotor.Rtip s.phi s.loads.cl s.loads.cd
        = foldK s.phi := by
      have := foldRotor_k (i := 0) (by norm_num) p0 e3.2
      simp only [stationK, if_true] at this
      rw [hcl.1, hcl.2, ← this]
      simp [kSpec, cnSpec, lossSpec, foldRotor, annulusRotor, demoRotor]
    obtain ⟨k0, k1⟩ := foldK_range s.phi
    have ha2 : s.loads.a = foldK s.phi / (1 + foldK s.phi) := by rw [ha, g1, hk, hF, axial_momentum p0 k1]
    have hap2 : s.loads.ap = 0 := by
      rw [hap, g2]
      simp [foldRotor, annulusRotor]
    obtain ⟨-, hW, -⟩ := distributedAeroLoads_speed _ _ _ _ _ _ _ _ h 0 s hs U _ hV hU0.ne' hVy
    have hab : |s.loads.a| ≤ 10 := by
      rw [ha2, abs_of_nonneg (by positivity), div_le_iff₀ (by linarith)]
      linarith
    obtain ⟨-, hW2⟩ := hW hab (by rw [hap2]; norm_num)
    have hfo := foldLift_force p0
    rw [hN, hq, hW2, hcl.1, hcl.2, hap2, hch, if_pos rfl, ha2]
    simp only [stationK, if_true, Nat.cast_zero, mul_zero, add_zero] at ht
    rw [Real.tan_eq_sin_div_cos, div_mul_eq_mul_div, div_eq_iff hcs.ne'] at ht
    have hsc := Real.sin_sq_add_cos_sq s.phi
    generalize Real.sin s.phi = sn at *
    generalize Real.cos s.phi = c at *
    generalize foldK s.phi = K at *
    generalize foldLift s.phi = l at *
    have hK : (0:ℝ) < 1 + K := by linarith
    have e1 : 1 - K / (1 + K) = 1 / (1 + K) := by field_simp; ring
    rw [e1]
    have e4 : l * c + 0 * sn = 40 * Real.pi * K * sn ^ 2 := by rw [← hfo]; ring
    rw [e4]
    have e5 : ((U * (1 / (1 + K))) ^ 2 + ((60 + 10 * ((0:ℕ):ℝ)) * (1 + 0)) ^ 2) * sn ^ 2 = (U / (1 + K)) ^ 2 := by
      have h6 : U * c = 60 * sn * (1 + K) := by linarith
      push_cast
      have h7 : sn ^ 2 * (60 * (1 + K)) ^ 2 = U ^ 2 * c ^ 2 := by rw [← mul_pow U, h6]; ring
      field_simp
      linear_combination h7 + U ^ 2 * hsc
    rw [div_pow] at e5
    have e6 : U ^ 2 * (K / (1 + K) ^ 2) = K * (U ^ 2 / (1 + K) ^ 2) := by ring
    rw [e6]
    push_cast at e5 ⊢
    linear_combination (40 * Real.pi * K * (foldRotor.rho / 2 * 4)) * e5
  · rw [hN, hch]
    norm_num

/-- **C111** (fails) The thrust can jump: with a continuous lift curve and every station solved without a warning, no root finder
gives a thrust that varies continuously with the wind speed.  Where the lift falls with the angle of attack the inflow equation has
several solutions, and on some of the paths between two wind speeds none can be followed. -/
theorem thrust_continuous_false : ∃ (cl : ℝ → ℝ) (R : Rotor ℝ), Continuous cl ∧ (∀ i alpha Re, (R.af i).evaluate alpha Re = (cl alpha, 0)) ∧
    StraightRotor R ∧ ∀ bq, FindsRoots bq → OnlyValueError bq →
      (∀ U ∈ Set.Icc 6 18, ∀ az L, (distributedAeroLoads bq R U (30 / Real.pi) 0 az).2 = .ok L → ∀ s ∈ L.stations, s.warned = false) ∧
      ∃ T : ℝ → ℝ, (∀ U, ∃ o x, (evaluate bq R [⟨U, 30 / Real.pi, 0⟩] true).2 = .ok o ∧ o.conds = [x] ∧ x.acc.T.val = T U) ∧
        ¬ ContinuousOn T (Set.Icc 6 18) := by
  refine ⟨foldLift, foldRotor, foldLift_continuous, fun _ _ _ => rfl, foldRotor_straight, fun bq hbq hval => ⟨?_, ?_⟩⟩
  · intro U hU az L hL s hs
    obtain ⟨i, hi⟩ := List.mem_iff_getElem?.mp hs
    exact (foldRotor_station hbq hU (Prod.ext rfl hL) hi).1
  have hex : ∀ U : ℝ, ∃ T, ∃ o x, (evaluate bq foldRotor [⟨U, 30 / Real.pi, 0⟩] true).2 = .ok o ∧ o.conds = [x] ∧ x.acc.T.val = T := by
    intro U
    obtain ⟨o, x, h, hx⟩ := annulusRotor_evaluate bq hval (fun i => 60 + 10 * i) (fun i => 4 - 4 * i) foldLift 5 80 U
    exact ⟨_, o, x, h, hx, rfl⟩
  choose T hT using hex
  refine ⟨T, hT, fun hc => ?_⟩
  have hpi := Real.pi_pos
  set c : ℝ := 3 * (65 / 2) * (80 * Real.pi * foldRotor.rho) with hcd
  have hc0 : 0 < c := by
    have : (0:ℝ) < foldRotor.rho := by norm_num [foldRotor, annulusRotor, demoRotor]
    positivity
  -- the state at a wind speed
  have hst : ∀ U ∈ Set.Icc (6:ℝ) 18, ∃ t K : ℝ, 0 < t ∧ 0 ≤ K ∧ K ≤ 2 / 3 ∧ K = min (2 / 3) (4 - 80 / 3 * min t (3 / 20)) ∧
      t * (1 + K) = U / 60 ∧ T U = c * (U ^ 2 * (K / (1 + K) ^ 2)) := by
    intro U hU
    obtain ⟨o, x, h, hx, hTU⟩ := hT U
    have hx0 : o.conds[0]? = some x := by rw [hx]; rfl
    obtain ⟨L, hL, hTs, -⟩ := sector_averages h (m := 0) rfl hx0
    have hns : foldRotor.nSector = 1 := rfl
    have hL0 := hL 0 (by rw [hns]; norm_num)
    have hR' : distributedAeroLoads bq foldRotor U (30 / Real.pi) 0 ((0:ℕ) * (360 / foldRotor.nSector)) = (_, .ok (L 0)) :=
      Prod.ext rfl hL0
    have hlen := (solveStations_ok (distributedAeroLoads_stations hR')).1
    obtain ⟨s0, hs0⟩ : ∃ s, (L 0).stations[0]? = some s := ⟨_, List.getElem?_eq_getElem (by rw [hlen]; exact Nat.zero_lt_two)⟩
    obtain ⟨s1, hs1⟩ : ∃ s, (L 0).stations[1]? = some s := ⟨_, List.getElem?_eq_getElem (by rw [hlen]; exact Nat.one_lt_two)⟩
    obtain ⟨-, t, t0, rfl, p0, p1, ht, hN0⟩ := foldRotor_station hbq hU hR' hs0
    obtain ⟨-, -, -, -, -, -, -, hN1⟩ := foldRotor_station hbq hU hR' hs1
    obtain ⟨k0, k1⟩ := foldK_range s0.phi
    simp only [stationK, if_true, Nat.cast_zero, mul_zero, add_zero] at ht
    refine ⟨Real.tan s0.phi, foldK s0.phi, t0, k0, k1, foldK_eq p0.le p1, ht, ?_⟩
    have hI : (bladeInt foldRotor (L 0)).T = 65 / 2 * stationArr (L 0).stations SecLoads.Np 0 + 10 * stationArr (L 0).stations SecLoads.Np 1 := by
      have hcone : ∀ j < 4, (defineCurvature 4 (padded 2 5 (fun i => 60 + 10 * (i:ℝ)) 80) (padded 2 0 (fun _ => 0) 0) (padded 2 0 (fun _ => 0) 0) 0).cone j = 0 := by
        intro j hj
        refine cone_of_straight_blade 4 (by omega) _ _ _ _ ⟨by linarith, by linarith⟩ ?_ ?_ j hj
        · intro l hl
          have : l < 3 := by omega
          interval_cases l <;> norm_num [padded]
        · intro l hl
          simp [padded]
      have e : bladeInt foldRotor (L 0) = thrustTorque 2 (stationArr (L 0).stations SecLoads.Np) (stationArr (L 0).stations SecLoads.Tp)
        (fun i => 60 + 10 * (i:ℝ)) (fun _ => 0) (fun _ => 0) 0 5 80 0 0 := rfl
      rw [e]
      simp only [thrustTorque, trapz, num_real, Finset.sum_range_succ, Finset.sum_range_zero]
      rw [hcone 0 (by norm_num), hcone 1 (by norm_num), hcone 2 (by norm_num), hcone 3 (by norm_num), Real.cos_zero]
      have h25 : Real.sqrt 3025 = 55 := by rw [show (3025:ℝ) = 55 ^ 2 by norm_num]; exact Real.sqrt_sq (by norm_num)
      have h100 : Real.sqrt 100 = 10 := by rw [show (100:ℝ) = 10 ^ 2 by norm_num]; exact Real.sqrt_sq (by norm_num)
      simp only [defineCurvature, pathLength, segLength, num_real, padded]
      norm_num
      rw [h25, h100]
      ring
    have hn0 : stationArr (L 0).stations SecLoads.Np 0 = s0.loads.Np := by simp [stationArr, hs0]
    have hn1 : stationArr (L 0).stations SecLoads.Np 1 = s1.loads.Np := by simp [stationArr, hs1]
    rw [← hTU, hTs, hns]
    simp only [Finset.sum_range_one]
    rw [hI, hn0, hn1, hN0, hN1, if_pos rfl, if_neg (by norm_num), hcd]
    have : (foldRotor.B : ℝ) = 3 := by norm_num [foldRotor, annulusRotor, demoRotor]
    rw [this]
    push_cast
    ring
  have hcg : ContinuousOn (fun U => T U / (c * U ^ 2)) (Set.Icc 6 18) := by
    refine hc.div (by fun_prop) fun U hU => ?_
    have : 0 < U := lt_of_lt_of_le (by norm_num) hU.1
    positivity
  have hg : ∀ U ∈ Set.Icc (6:ℝ) 18, ∀ K, T U = c * (U ^ 2 * (K / (1 + K) ^ 2)) → T U / (c * U ^ 2) = K / (1 + K) ^ 2 := by
    intro U hU K h
    have : 0 < U := lt_of_lt_of_le (by norm_num) hU.1
    rw [h]
    field_simp
  -- the ratio belonging to a value
  have hinj : ∀ K K' : ℝ, 0 ≤ K → K ≤ 2 / 3 → 0 ≤ K' → K' ≤ 2 / 3 → K / (1 + K) ^ 2 = K' / (1 + K') ^ 2 → K = K' := by
    intro K K' a1 a2 b1 b2 h
    rw [div_eq_div_iff (by positivity) (by positivity)] at h
    have h2 : (K - K') * (1 - K * K') = 0 := by linear_combination h
    rcases mul_eq_zero.mp h2 with h3 | h3
    · linarith
    · nlinarith
  have h6 : T 6 / (c * 6 ^ 2) = 6 / 25 := by
    obtain ⟨t, K, t0, k0, k1, hK, ht, hTU⟩ := hst 6 ⟨le_rfl, by norm_num⟩
    rw [hg 6 ⟨le_rfl, by norm_num⟩ K hTU]
    have htl : t ≤ 1 / 10 := by nlinarith
    rw [min_eq_left (by linarith : t ≤ 3 / 20), min_eq_left (by linarith)] at hK
    rw [hK]
    norm_num
  have h18 : T 18 / (c * 18 ^ 2) = 0 := by
    obtain ⟨t, K, t0, k0, k1, hK, ht, hTU⟩ := hst 18 ⟨by norm_num, le_rfl⟩
    rw [hg 18 ⟨by norm_num, le_rfl⟩ K hTU]
    have htl : 9 / 50 ≤ t := by nlinarith
    rw [min_eq_right (by linarith : 3 / 20 ≤ t)] at hK
    norm_num at hK
    rw [hK]
    norm_num
  obtain ⟨Ua, hUa, hga⟩ : ∃ U ∈ Set.Icc (6:ℝ) 18, T U / (c * U ^ 2) = 2 / 9 := by
    obtain ⟨U, hU, h⟩ := intermediate_value_Icc' (by norm_num) hcg (show (2 / 9 : ℝ) ∈ Set.Icc _ _ by
      simp only [h6, h18]; norm_num)
    exact ⟨U, hU, h⟩
  have hUa' : Ua = 189 / 16 := by
    obtain ⟨t, K, t0, k0, k1, hK, ht, hTU⟩ := hst Ua hUa
    rw [hg Ua hUa K hTU] at hga
    have hK2 : K = 1 / 2 := hinj K (1 / 2) k0 k1 (by norm_num) (by norm_num) (hga.trans (by norm_num))
    rw [hK2] at hK ht
    rcases min_choice (2 / 3 : ℝ) (4 - 80 / 3 * min t (3 / 20)) with h | h
    · rw [h] at hK; norm_num at hK
    · rw [h] at hK
      rcases min_choice t (3 / 20 : ℝ) with h' | h'
      · rw [h'] at hK; linarith
      · rw [h'] at hK; norm_num at hK
  obtain ⟨Ub, hUb, hgb⟩ : ∃ U ∈ Set.Icc Ua 18, T U / (c * U ^ 2) = 4 / 25 := by
    obtain ⟨U, hU, h⟩ := intermediate_value_Icc' hUa.2 (hcg.mono (Set.Icc_subset_Icc_left hUa.1)) (show (4 / 25 : ℝ) ∈ Set.Icc _ _ by
      simp only [hga, h18]; norm_num)
    exact ⟨U, hU, h⟩
  have hUb2 : Ub ∈ Set.Icc (6:ℝ) 18 := ⟨hUa.1.trans hUb.1, hUb.2⟩
  obtain ⟨t, K, t0, k0, k1, hK, ht, hTU⟩ := hst Ub hUb2
  rw [hg Ub hUb2 K hTU] at hgb
  have hK2 : K = 1 / 4 := hinj K (1 / 4) k0 k1 (by norm_num) (by norm_num) (hgb.trans (by norm_num))
  rw [hK2] at hK ht
  have h1 := hUb.1
  rcases min_choice (2 / 3 : ℝ) (4 - 80 / 3 * min t (3 / 20)) with h | h
  · rw [h] at hK; norm_num at hK
  · rw [h] at hK
    rcases min_choice t (3 / 20 : ℝ) with h' | h'
    · rw [h'] at hK; linarith
    · rw [h'] at hK; norm_num at hK

/-! ## A rotor with one solution -/

/-- The reciprocal of `1 - a` without losses. -/
noncomputable def wakeFactor (k : ℝ) : ℝ := if k ≤ 2 / 3 then 1 + k else Real.sqrt (2 * k - 1 / 3) + 2 / 3

theorem wakeFactor_continuous : Continuous wakeFactor := by
  unfold wakeFactor
  refine Continuous.if_le (by fun_prop) (by fun_prop) continuous_id continuous_const fun k hk => ?_
  have hk' : k = 2 / 3 := hk
  rw [hk', show (2 * (2 / 3) - 1 / 3 : ℝ) = 1 ^ 2 by norm_num, Real.sqrt_sq (by norm_num)]

theorem axial_wakeFactor {phi k : ℝ} (hp : 0 < phi) (hk : -1 < k) : 1 / (1 - axialInduction phi k 1) = wakeFactor k := by
  unfold wakeFactor
  split_ifs with h
  · rw [axial_momentum hp h]
    have : 1 + k ≠ 0 := by linarith
    have e : 1 - k / (1 + k) = 1 / (1 + k) := by field_simp; ring
    rw [e, one_div_one_div]
  · push Not at h
    have hg3 : 1 / 1000000 ≤ |buhlG3 1 k| := by
      rw [buhlG3_real, abs_of_nonneg (by linarith)]
      linarith
    rw [axial_buhl hp one_pos h hg3, buhlG2_real]
    have e : (2 * k * 1 - (4 / 3 - 1) * 1 : ℝ) = 2 * k - 1 / 3 := by ring
    rw [sub_sub_cancel, one_div_one_div]
    congr 1
    · congr 1
      ring
    · norm_num

section
variable {s r : ℝ}

/-- The ratio of blade force to momentum. -/
noncomputable def fullK (r phi : ℝ) : ℝ := Real.sqrt 2 / 2 * (8 / r - 1) * (Real.cos phi / Real.sin phi ^ 2)

theorem FullOk.residual_wake (h : FullOk s r) {phi : ℝ} (h0 : 0 < phi) (hk : -1 < fullK r phi) :
    (fullSec s r phi).residual dictRotor (reAirfoil 0) = Real.sin phi * wakeFactor (fullK r phi) - 8 / r * Real.cos phi := by
  have hr : r ≠ 0 := by have := h.lo; linarith
  have hs0 := h.s.ne'
  rw [SecIn.residual_eq dictRotor rfl, fullSec_ind]
  obtain ⟨-, -, h3⟩ := indOut_eq r (fullChord r) 1 10 phi 1 0 3 (8 * s) (s * r) ⟨false, false, false, false⟩
  have hF : lossSpec ⟨false, false, false, false⟩ 3 r 1 10 phi = 1 := by simp [lossSpec]
  rw [h.kSpec, hF] at h3
  simp only [IndIn.eval]
  refine h3.trans ?_
  simp only [bemResidual, h0, if_true, Bool.false_eq_true, if_false]
  rw [div_eq_mul_one_div (Real.sin phi)]
  have := axial_wakeFactor h0 hk
  unfold fullK at this ⊢
  rw [this]
  field_simp
  ring

theorem fullK_nonneg (h : FullOk s r) {phi : ℝ} (hp : phi ∈ Set.Icc (1 / 1000000) (Real.pi / 2)) : 0 ≤ fullK r phi := by
  have hk := h.k_range.1
  have hc : 0 ≤ Real.cos phi := Real.cos_nonneg_of_neg_pi_div_two_le_of_le (by linarith [hp.1, Real.pi_pos]) hp.2
  unfold fullK
  positivity

/-- In the region of Buhl's formula the residual is negative. -/
private theorem buhl_region {sn c k d q : ℝ} (hs : 0 < sn) (hc : 0 ≤ c) (hsc : sn ^ 2 + c ^ 2 = 1) (e0 : 0 < d) (e1 : d < 2 / 3)
    (h2 : q ^ 2 = 2) (h20 : 0 < q) (hkdef : k * sn ^ 2 = q / 2 * d * c) (hkc : 2 / 3 < k) :
    sn * (Real.sqrt (2 * k - 1 / 3) + 2 / 3) - (1 + d) * c < 0 := by
  by_contra h0
  push Not at h0
  have hsn2 : 0 < sn ^ 2 := by positivity
  have h4 : 2 / 3 * sn ^ 2 < q / 2 * d * c := by
    have := mul_lt_mul_of_pos_right hkc hsn2
    rw [hkdef] at this
    linarith
  have hcpos : 0 < c := by
    rcases hc.lt_or_eq with h' | h'
    · exact h'
    · rw [← h'] at h4; linarith
  have h5 : sn ^ 2 < q / 2 * c := by
    have : q / 2 * d * c ≤ q / 2 * (2 / 3) * c := by gcongr
    linarith
  have h6 : 1 < q * c := by
    by_contra hn
    push Not at hn
    have h3 : (q * c - 1) * (q * c + 2) ≤ 0 := mul_nonpos_of_nonpos_of_nonneg (by linarith) (by positivity)
    have e : (q * c - 1) * (q * c + 2) = 2 * (c ^ 2 - 1) + q * c := by linear_combination c ^ 2 * h2
    have : c ^ 2 - 1 = - sn ^ 2 := by linarith
    rw [e, this] at h3
    linarith
  have h7 : sn < c := by
    refine lt_of_pow_lt_pow_left₀ 2 hc ?_
    have : 1 < (q * c) ^ 2 := by nlinarith
    rw [mul_pow, h2] at this
    linarith
  have hx : q * c ≤ 2 * c ^ 2 := by
    have : q * c * 1 ≤ q * c * (q * c) := by gcongr
    have e : q * c * (q * c) = 2 * c ^ 2 := by linear_combination c ^ 2 * h2
    linarith
  have h8 : Real.sqrt (2 * k - 1 / 3) ^ 2 = 2 * k - 1 / 3 := Real.sq_sqrt (by linarith)
  have h80 := Real.sqrt_nonneg (2 * k - 1 / 3)
  generalize Real.sqrt (2 * k - 1 / 3) = w at *
  have h9 : (1 + d) * c - 2 / 3 * sn ≤ sn * w := by linarith
  have hdc : 0 < d * c := mul_pos e0 hcpos
  have h10 : ((1 + d) * c - 2 / 3 * sn) ^ 2 ≤ 2 * (q / 2 * d * c) - sn ^ 2 / 3 := by
    have := pow_le_pow_left₀ (by nlinarith) h9 2
    rw [mul_pow, h8] at this
    linarith
  have h11 : 0 < (c - sn) * (c - sn / 3) := mul_pos (by linarith) (by linarith)
  have h12 : q * c * d ≤ 2 * c ^ 2 * d := by gcongr
  have h13 := sq_nonneg (d * c - 2 / 3 * sn)
  nlinarith

/-- The only solution is 45°. -/
theorem FullOk.unique (h : FullOk s r) {phi : ℝ} (hp : phi ∈ Set.Icc (1 / 1000000) (Real.pi / 2))
    (h0 : (fullSec s r phi).residual dictRotor (reAirfoil 0) = 0) : phi = Real.pi / 4 := by
  have hpi := Real.pi_gt_three
  have p0 : 0 < phi := lt_of_lt_of_le (by norm_num) hp.1
  have hk0 := fullK_nonneg h hp
  rw [h.residual_wake p0 (by linarith)] at h0
  obtain ⟨e0, e1⟩ := h.k_range
  have hs : 0 < Real.sin phi := Real.sin_pos_of_pos_of_lt_pi p0 (by linarith [hp.2])
  have hc : 0 ≤ Real.cos phi := Real.cos_nonneg_of_neg_pi_div_two_le_of_le (by linarith) hp.2
  have hsc := Real.sin_sq_add_cos_sq phi
  have h2 : Real.sqrt 2 ^ 2 = 2 := Real.sq_sqrt (by norm_num)
  have h20 : 0 < Real.sqrt 2 := by positivity
  have hkdef : fullK r phi * Real.sin phi ^ 2 = Real.sqrt 2 / 2 * (8 / r - 1) * Real.cos phi := by
    unfold fullK
    field_simp
  suffices hsin : Real.sin phi = Real.sqrt 2 / 2 by
    rw [← Real.sin_pi_div_four] at hsin
    exact Real.injOn_sin ⟨by linarith, hp.2⟩ ⟨by linarith, by linarith⟩ hsin
  generalize Real.sin phi = sn at *
  generalize Real.cos phi = c at *
  generalize fullK r phi = k at *
  have hrho : 8 / r = 1 + (8 / r - 1) := by ring
  rw [hrho] at h0
  generalize 8 / r - 1 = d at *
  generalize Real.sqrt 2 = q at *
  unfold wakeFactor at h0
  split_ifs at h0 with hkc
  · -- momentum region
    have h3 : sn * (sn - c) = d * c * (sn - q / 2) := by
      have : sn * (sn * (1 + k) - (1 + d) * c) = 0 := by rw [h0, mul_zero]
      linear_combination this - hkdef
    have hcq : c ^ 2 - (q / 2) ^ 2 = (q / 2) ^ 2 - sn ^ 2 := by linear_combination hsc - (1 / 2) * h2
    rcases lt_trichotomy sn (q / 2) with hlt | heq | hgt
    · exfalso
      have hc2 : q / 2 < c := by
        refine lt_of_pow_lt_pow_left₀ 2 hc ?_
        have := pow_lt_pow_left₀ hlt hs.le (n := 2) (by norm_num)
        linarith
      have h4 : d * c < sn := by
        have h5 : d * c * q ≤ 4 / 3 * sn ^ 2 := by
          have := mul_le_mul_of_nonneg_right hkc (sq_nonneg sn)
          rw [hkdef] at this
          linarith
        have h6 : sn ^ 2 < sn * (q / 2) := by nlinarith
        nlinarith
      have h7 : d * c * (q / 2 - sn) < sn * (c - sn) :=
        mul_lt_mul h4 (by linarith) (by linarith) hs.le
      linarith
    · exact heq
    · exfalso
      have hc2 : c < q / 2 := by
        refine lt_of_pow_lt_pow_left₀ 2 (by positivity) ?_
        have := pow_lt_pow_left₀ hgt (by positivity) (n := 2) (by norm_num)
        linarith
      have h4 : d * c < sn := by nlinarith
      have h7 : d * c * (sn - q / 2) < sn * (sn - c) := mul_lt_mul h4 (by linarith) (by linarith) hs.le
      linarith
  · exact absurd h0 (buhl_region hs hc hsc e0 e1 h2 h20 hkdef (by linarith)).ne

theorem fullK_continuousAt (r : ℝ) {phi : ℝ} (h : Real.sin phi ≠ 0) : ContinuousAt (fullK r) phi := by
  unfold fullK
  have : Real.sin phi ^ 2 ≠ 0 := pow_ne_zero 2 h
  fun_prop (disch := assumption)

theorem FullOk.low (h : FullOk s r) (h7 : r ≤ 7) : (fullSec s r (1 / 1000000)).residual dictRotor (reAirfoil 0) < 0 := by
  have hpi := Real.pi_gt_three
  have hp : (1 / 1000000 : ℝ) ∈ Set.Icc (1 / 1000000) (Real.pi / 2) := ⟨le_rfl, by linarith⟩
  have s1 : Real.sin (1 / 1000000) ≤ 1 / 1000000 := Real.sin_le (by norm_num)
  have s0 : 0 < Real.sin (1 / 1000000) := Real.sin_pos_of_pos_of_lt_pi (by norm_num) (by linarith)
  have c1 : 1 / 2 ≤ Real.cos (1 / 1000000) := by
    have := Real.one_sub_sq_div_two_le_cos (x := 1 / 1000000)
    norm_num at this ⊢
    linarith
  obtain ⟨e0, e1⟩ := h.k_range
  have hr : 0 < r := by have := h.lo; linarith
  have h2 : Real.sqrt 2 ^ 2 = 2 := Real.sq_sqrt (by norm_num)
  have h20 : 0 < Real.sqrt 2 := by positivity
  have h21 : 1 ≤ Real.sqrt 2 := by rw [Real.one_le_sqrt]; norm_num
  have hd : 1 / 7 ≤ 8 / r - 1 := by
    have : 8 / 7 ≤ 8 / r := div_le_div_of_nonneg_left (by norm_num) hr h7
    linarith
  have hsc := Real.sin_sq_add_cos_sq (1 / 1000000)
  have hkdef : fullK r (1 / 1000000) * Real.sin (1 / 1000000) ^ 2 = Real.sqrt 2 / 2 * (8 / r - 1) * Real.cos (1 / 1000000) := by
    unfold fullK
    field_simp
  have hk : 2 / 3 < fullK r (1 / 1000000) := by
    by_contra hn
    push Not at hn
    have h3 := mul_le_mul_of_nonneg_right hn (sq_nonneg (Real.sin (1 / 1000000)))
    have h4 : Real.sin (1 / 1000000) ^ 2 ≤ (1 / 1000000) ^ 2 := pow_le_pow_left₀ s0.le s1 2
    have h5 : 1 / 2 * (1 / 7) * (1 / 2) ≤ Real.sqrt 2 / 2 * (8 / r - 1) * Real.cos (1 / 1000000) := by gcongr
    rw [hkdef] at h3
    norm_num at h4
    linarith
  rw [h.residual_wake (by norm_num) (by linarith)]
  have := buhl_region s0 (by linarith) hsc e0 e1 h2 h20 hkdef hk
  unfold wakeFactor
  rw [if_neg (by linarith)]
  linarith

/-- The hypotheses of the theorems above hold for the section. -/
theorem fullSec_sole (h : FullOk 1 r) (h7 : r ≤ 7) : SoleSolution (fun s phi => (fullSec s r phi).residual dictRotor (reAirfoil 0)) 1 (Real.pi / 4) := by
  have hpi := Real.pi_gt_three
  have hok : ∀ s : ℝ, 0 < s → FullOk s r := fun s hs => ⟨hs, h.lo, h.hi⟩
  have hsin : ∀ p ∈ Set.Icc (1 / 1000000) (Real.pi / 2), Real.sin p ≠ 0 := fun p hp =>
    (Real.sin_pos_of_pos_of_lt_pi (lt_of_lt_of_le (by norm_num) hp.1) (by linarith [hp.2])).ne'
  have hg : ∀ p ∈ Set.Icc (1 / 1000000) (Real.pi / 2), ContinuousAt (fun phi => Real.sin phi * wakeFactor (fullK r phi) - 8 / r * Real.cos phi) p := by
    intro p hp
    have h1 := wakeFactor_continuous.continuousAt.comp (fullK_continuousAt r (hsin p hp))
    exact (Real.continuous_sin.continuousAt.mul h1).sub (continuousAt_const.mul Real.continuous_cos.continuousAt)
  refine ⟨?_, fun p hp => ?_, ?_, fun p hp h0 => h.unique hp h0⟩
  · refine mul_neg_of_neg_of_pos (h.low h7) ?_
    have hk : fullK r (Real.pi / 2) = 0 := by simp [fullK]
    rw [h.residual_wake (by linarith) (by rw [hk]; norm_num), hk]
    norm_num [wakeFactor]
  · have h1 : ∀ᶠ z : ℝ × ℝ in 𝓝 (1, p), 0 < z.1 := continuousAt_fst.eventually (lt_mem_nhds one_pos)
    have h2 : ∀ᶠ z : ℝ × ℝ in 𝓝 (1, p), 0 < z.2 := continuousAt_snd.eventually (lt_mem_nhds (lt_of_lt_of_le (by norm_num) hp.1))
    have h3 : ∀ᶠ z : ℝ × ℝ in 𝓝 (1, p), -1 < fullK r z.2 :=
      (ContinuousAt.comp (x := ((1:ℝ), p)) (f := Prod.snd) (g := fullK r) (fullK_continuousAt r (hsin p hp)) continuousAt_snd).eventually
        (lt_mem_nhds (a := -1) (by have := fullK_nonneg h hp; simp only [Function.comp]; linarith))
    refine ContinuousAt.congr (f := fun z : ℝ × ℝ => Real.sin z.2 * wakeFactor (fullK r z.2) - 8 / r * Real.cos z.2)
      (ContinuousAt.comp (x := ((1:ℝ), p)) (f := Prod.snd) (g := fun phi => Real.sin phi * wakeFactor (fullK r phi) - 8 / r * Real.cos phi)
        (hg p hp) continuousAt_snd) ?_
    filter_upwards [h1, h2, h3] with z g1 g2 g3
    exact ((hok z.1 g1).residual_wake g2 g3).symm
  · filter_upwards [lt_mem_nhds (one_pos (α := ℝ))] with s hs
    refine ContinuousOn.congr (f := fun phi => Real.sin phi * wakeFactor (fullK r phi) - 8 / r * Real.cos phi)
      (fun p hp => (hg p hp).continuousWithinAt) fun p hp => ?_
    exact (hok s hs).residual_wake (lt_of_lt_of_le (by norm_num) hp.1) (by have := fullK_nonneg h hp; linarith)

end

theorem fullCurve_solve {bq : RootFinder ℝ} (hbq : FindsRoots bq) {r : ℝ} (h : FullOk 1 r) (h7 : r ≤ 7) {s : ℝ} (hs : 0 < s) :
    solvePhi bq (fun phi => (fullSec s r phi).residual dictRotor (reAirfoil 0)) = .ok (Real.pi / 4, false) := by
  have hok : FullOk s r := ⟨hs, h.lo, h.hi⟩
  have hsole := fullSec_sole h h7
  -- the residual does not depend on `s`
  have he : ∀ p ∈ Set.Icc (1 / 1000000) (Real.pi / 2), (fullSec s r p).residual dictRotor (reAirfoil 0)
      = (fullSec 1 r p).residual dictRotor (reAirfoil 0) := fun p hp => by
    have p0 : 0 < p := lt_of_lt_of_le (by norm_num) hp.1
    have hk := fullK_nonneg h hp
    rw [hok.residual_wake p0 (by linarith), h.residual_wake p0 (by linarith)]
  have hpi := Real.pi_gt_three
  have hle : (1 / 1000000 : ℝ) ≤ Real.pi / 2 := by linarith
  set f : ℝ → ℝ := fun phi => (fullSec s r phi).residual dictRotor (reAirfoil 0) with hf
  have hsign : f (1 / 1000000) * f (Real.pi / 2) ≤ 0 := by
    simp only [hf]
    rw [he _ (Set.left_mem_Icc.mpr hle), he _ (Set.right_mem_Icc.mpr hle)]
    exact hsole.sign.le
  have hcont : ContinuousOn f (Set.Icc (1 / 1000000) (Real.pi / 2)) :=
    hsole.near.self_of_nhds.congr fun p hp => he p hp
  obtain ⟨p, e1, e2, e3⟩ := hbq f _ _ hle hcont hsign
  have hp : p = Real.pi / 4 := hok.unique e3 e2
  unfold solvePhi
  rw [(bracket_choice f).1 hsign]
  simp only [e1, hp]

theorem fullCurve_radius {i : ℕ} (hi : i < 3) : (6 + i / 2 : ℝ) ≤ 7 := by
  have : (i : ℝ) ≤ 2 := by exact_mod_cast (by omega : i ≤ 2)
  linarith

/-- Every sound root finder gives the same loads. -/
theorem fullCurve_loads_any {bq : RootFinder ℝ} (hbq : FindsRoots bq) {s : ℝ} (hs : 0 < s) (m : ℕ) (az : ℝ) :
    ∃ L, ((fullCurve s).cond m az).call bq dictRotor = .ok L := by
  obtain ⟨l, hl⟩ := solveStations_of_all (bq := bq) (R := ((fullCurve s).cond m az).rotor dictRotor) (pitch := deg2rad 0)
    (Omega := (fullCurve s).Omega m)
    (V := rotorWind (((fullCurve s).cond m az).rotor dictRotor) ((fullCurve s).Uinf m) ((fullCurve s).Omega m) (deg2rad az)) (k := 3) fun i hi => by
    obtain ⟨st, hst, hphi⟩ := fullCurve_station hs m az i hi
    refine ⟨st, ?_⟩
    rw [← hst]
    have hO' : ((fullCurve s).Omega m == 0) = false := by
      have := (fullCurve_Omega hs m).ne'
      simp [num_real, this]
    have hf : stationErrf (((fullCurve s).cond m az).rotor dictRotor) (deg2rad 0)
        (rotorWind (((fullCurve s).cond m az).rotor dictRotor) ((fullCurve s).Uinf m) ((fullCurve s).Omega m) (deg2rad az)) i
        = fun phi => (fullSec s (6 + i / 2) phi).residual dictRotor (reAirfoil 0) := by
      funext phi
      have := Design.stationResidual_eq (R := dictRotor) rfl ((fullCurve s).cond m az) i phi
      rw [show dictRotor.n = 3 from rfl, fullCurve_sec s m az i hi phi] at this
      exact this
    have h1 : ∀ b : RootFinder ℝ, solvePhi b (fun phi => (fullSec s (6 + i / 2) phi).residual dictRotor (reAirfoil 0)) = .ok (Real.pi / 4, false) →
        stationPhi b (((fullCurve s).cond m az).rotor dictRotor) (deg2rad 0) ((fullCurve s).Omega m)
          (rotorWind (((fullCurve s).cond m az).rotor dictRotor) ((fullCurve s).Uinf m) ((fullCurve s).Omega m) (deg2rad az)) i
          = .ok (Real.pi / 4, false) := by
      intro b hb
      simp only [stationPhi, hO', Bool.false_eq_true, if_false]
      rw [if_neg (by simp [Design.rotor, dictRotor, reRotor, demoRotor]), hf, hb]
    unfold solveStation
    rw [h1 bq (fullCurve_solve hbq (fullCurve_ok one_pos hi) (fullCurve_radius hi) hs), h1 dictBq rfl]
  obtain ⟨L, hL, -⟩ := distributedAeroLoads_of_stations (R := ((fullCurve s).cond m az).rotor dictRotor) (pitch := 0) (az := az) hl
  exact ⟨L, hL⟩

theorem fullCurve_call_any {bq : RootFinder ℝ} (hbq : FindsRoots bq) {s : ℝ} (hs : 0 < s) :
    ∃ o, (fullCurve s).call bq dictRotor 2 true = .ok o := by
  refine evaluate_conditions_ok _ _ _ _ (by simp [RotorDesign.conds]) fun c hc => ?_
  obtain ⟨m, -, rfl⟩ := List.mem_map.mp hc
  obtain ⟨acc, h⟩ := (condAcc_ok_iff bq ((fullCurve s).rotor dictRotor)
    ⟨(fullCurve s).Uinf m, (fullCurve s).Omega m, (fullCurve s).pitch m⟩).mpr fun k hk => by
      obtain ⟨L, hL⟩ := fullCurve_loads_any hbq hs m (k * (360 / ((fullCurve s).rotor dictRotor).nSector))
      exact ⟨L, by rw [RotorDesign.loads_eq]; exact hL⟩
  obtain ⟨W, hW⟩ := Option.isSome_iff_exists.mp ((condAcc_W h).mpr (by simp [RotorDesign.rotor, dictRotor, reRotor, demoRotor]))
  exact ⟨⟨_, W⟩, (evaluate_single _ _ _ _ _).mpr ⟨acc, h, hW, rfl⟩⟩

theorem fullCurve_sole (m : ℕ) (az : ℝ) (i : ℕ) (hi : i < 3) :
    SoleSolution (fun s p => (((fullCurve s).cond m az).sec dictRotor.n i p).residual dictRotor (dictRotor.af i)) 1 (Real.pi / 4) := by
  have h := fullSec_sole (fullCurve_ok one_pos hi) (fullCurve_radius hi)
  have e : (fun s p => (((fullCurve s).cond m az).sec dictRotor.n i p).residual dictRotor (dictRotor.af i))
      = fun s phi => (fullSec s (6 + i / 2) phi).residual dictRotor (reAirfoil 0) := by
    funext s p
    rw [show dictRotor.n = 3 from rfl, fullCurve_sec s m az i hi p]
    rfl
  rw [e]
  exact h

/-- The hypotheses of `rotor_continuous_partial` are met, by every sound root finder: the torque and the thrust of the second
condition. -/
example (bq : RootFinder ℝ) (hbq : FindsRoots bq) : ∃ o : ℝ → EvalOut ℝ, (∀ᶠ s in 𝓝 (1 : ℝ), (fullCurve s).call bq dictRotor 2 true = .ok (o s)) ∧
    ContinuousAt (fun s => outputAt (o s) (fun x => x.acc.T) 1) 1 ∧
    HasDerivAt (fun s => outputAt (o s) (fun x => x.acc.Q) 1) (rotorApply 3 2 (outputDict 3 (o 1) fun x => x.acc.Q) fullVel 1) 1 := by
  have hex : ∀ s, ∃ o, 0 < s → (fullCurve s).call bq dictRotor 2 true = .ok o := fun s => by
    by_cases hs : 0 < s
    · obtain ⟨o, ho⟩ := fullCurve_call_any hbq hs
      exact ⟨o, fun _ => ho⟩
    · exact ⟨⟨[], fun _ => 0⟩, fun h => absurd h hs⟩
  choose o ho using hex
  have hpos : ∀ᶠ s in 𝓝 (1 : ℝ), 0 < s := lt_mem_nhds one_pos
  have key := rotor_continuous_partial bq hbq dictRotor (by norm_num [dictRotor, reRotor, demoRotor]) rfl rfl rfl 2 true fullCurve fullVel 1
    (fullCurve_deriv 2 1) o (hpos.mono ho) 1 (by norm_num) (fun i _ _ _ _ => by simp [dictRotor, reAirfoil]) (fun _ _ => Real.pi / 4)
    (fun k _ i hi => fullCurve_sole 1 _ i hi) (fun k hk i hi => by
      obtain rfl : k = 0 := by have : dictRotor.nSector = 1 := rfl; omega
      exact fullCurve_dictRegular 1 i hi) fullCurve_regular (Or.inr fun _ _ => rfl)
  exact ⟨o, hpos.mono ho, (key _ (by simp)).1, (key _ (by simp)).2⟩

/-- The hypotheses of `loads_continuous_partial` are met. -/
example : ∃ L : ℝ → LoadsOut ℝ, ContinuousAt (fun s => stationArr (L s).stations SecLoads.Np 2) 1 ∧
    (∀ᶠ s in 𝓝 (1 : ℝ), ((fullCurve s).cond 0 ((0 : ℕ) * (360 / dictRotor.nSector))).call someRoot dictRotor = .ok (L s)) := by
  have hex : ∀ s, ∃ L, 0 < s → ((fullCurve s).cond 0 ((0 : ℕ) * (360 / dictRotor.nSector))).call someRoot dictRotor = .ok L := fun s => by
    by_cases hs : 0 < s
    · obtain ⟨L, hL⟩ := fullCurve_loads_any someRoot_finds hs 0 ((0 : ℕ) * (360 / dictRotor.nSector))
      exact ⟨L, fun _ => hL⟩
    · exact ⟨⟨[], [], []⟩, fun h => absurd h hs⟩
  choose L hL using hex
  have hpos : ∀ᶠ s in 𝓝 (1 : ℝ), 0 < s := lt_mem_nhds one_pos
  refine ⟨L, ?_, hpos.mono hL⟩
  exact (loads_continuous_partial someRoot someRoot_finds dictRotor (by norm_num [dictRotor, reRotor, demoRotor]) rfl rfl rfl _ _ 1
    ((fullCurve_deriv 2 1).cond 0 (by norm_num) _) L (hpos.mono hL) 2 (by norm_num [dictRotor, reRotor, demoRotor])
    (fun _ _ _ => by simp [dictRotor, reAirfoil]) (Real.pi / 4) (fullCurve_sole 0 _ 2 (by norm_num)) (fullCurve_dictRegular 0 2 (by norm_num))
    (Or.inr fun _ _ => rfl)).2.1

end Verif
