import Verif.Props.RotorTotal
import Verif.Props.EvalComponent

/-!
# The Jacobian of the evaluate component from end to end (C84)

`evaluate_component_jacobian_partial` supposes exact load dictionaries, `loads_dictionary` supplies them.
-/

namespace Verif

open Filter Topology Finset

/-- **C84** From end to end, for a blade that ends neither at the hub nor at the tip, with airfoils that do not depend on the
Reynolds number and a state that does not change between axisymmetric and not: where the inflow angles of all stations and
sectors are roots of the residual, vary continuously and are regular, `compute_partials` returns the derivatives of power, root
moment, hub forces and hub moments along every curve of the inputs the analysis differentiates (radii vary only on blades without
precurve), and those of each coefficient whose force or moment is not zero.  Missing: density and viscosity
(`evaluate_component_density_false`), blades that end at the hub or at the tip. -/
theorem evaluate_component_total_partial (fit : SplineFit ℝ) (bq : RootFinder ℝ) (x : EvalIn ℝ) (D : ℝ → RotorDesign)
    (V : RotorDesign) (t : ℝ) (hn : 2 ≤ x.blade.n) (hV : RotorDesign.HasDeriv x.blade.n 1 D V t)
    (hhub : (D t).Rhub ≠ (D t).r 0) (htip : (D t).Rtip ≠ (D t).r (x.blade.n - 1))
    (hpc : ∀ᶠ s in 𝓝 t, FreeTip x.blade.n (D s).precurve (D s).precurveTip)
    (hps : ∀ᶠ s in 𝓝 t, FreeTip x.blade.n (D s).presweep (D s).presweepTip)
    (hax : ∀ᶠ s in 𝓝 t, ((D s).tilt = 0 ∧ (D s).yaw = 0 ∧ (D s).shear = 0) ↔ ((D t).tilt = 0 ∧ (D t).yaw = 0 ∧ (D t).shear = 0))
    (afs : List (CCAf ℝ)) (hafs : x.blade.af.airfoils fit 0 x.blade.n = .ok afs) (R : Rotor ℝ)
    (hR : (((x.withDesign (D t)).blade).args (D t).theta afs true).build = .ok R)
    (o : ℝ → EvalOut ℝ) (hrun : ∀ᶠ s in 𝓝 t, (x.withDesign (D s)).run fit bq true = .ok (o s))
    (hind : ∀ i < x.blade.n, (afList afs i).ReIndependent)
    (P : ℕ → ℕ → ℝ → ℝ) (hP : ∀ k < R.nSector, ∀ i < x.blade.n, ContinuousAt (P k i) t)
    (hphi : ∀ k < R.nSector, ∀ i < x.blade.n, ∀ᶠ s in 𝓝 t, ∀ L, ((D s).cond 0 (k * (360 / R.nSector))).call bq R = .ok L →
      ∃ st, L.stations[i]? = some st ∧ st.phi = P k i s)
    (hroot : ∀ k < R.nSector, ∀ i < x.blade.n, ∀ᶠ s in 𝓝 t,
      (((D s).cond 0 (k * (360 / R.nSector))).sec x.blade.n i (P k i s)).residual R (afList afs i) = 0)
    (hsec : ∀ k < R.nSector, ∀ i < x.blade.n, DictRegular R ((D t).cond 0 (k * (360 / R.nSector))) i (P k i t))
    (hreg : ((D t).blade (fun _ => 0) (fun _ => 0)).Regular x.blade.n)
    (hr : (∀ j < x.blade.n, V.r j = 0) ∨ ∀ j < x.blade.n, (D t).precurve j = (D t).precurve 0) :
    ∃ (out : ℝ → EvalCompOut ℝ) (J : Jac ℝ), (∀ᶠ s in 𝓝 t, (x.withDesign (D s)).compute fit bq = .ok (out s)) ∧
      (x.withDesign (D t)).partials fit bq = .ok J ∧
      (∀ q ∈ evalOutputs, q.1 ∈ ["P", "Mb", "Fhub", "Mhub"] →
        HasDerivAt (fun s => (out s).get q.1 q.2.1) (evalApply x.blade.n J q.1 V q.2.1) t) ∧
      (x.blade.rho ≠ 0 → (D t).Uinf 0 ≠ 0 → (D t).radius ≠ 0 → (D t).Omega 0 ≠ 0 →
        ∀ p ∈ [("CP", "Mhub", 0), ("CMb", "Mb", 0), ("CFhub", "Fhub", 0), ("CFhub", "Fhub", 1), ("CFhub", "Fhub", 2),
          ("CMhub", "Mhub", 0), ("CMhub", "Mhub", 1), ("CMhub", "Mhub", 2)], (out t).get p.2.1 p.2.2 ≠ 0 →
          HasDerivAt (fun s => (out s).get p.1 p.2.2) (evalApply x.blade.n J p.1 V p.2.2) t) := by
  obtain ⟨hRn, haf, -, -, -, -, hder, -⟩ := build_data hR
  have hRn : R.n = x.blade.n := hRn
  have haf : R.af = afList afs := haf
  have h0 : x.blade.n ≠ 0 := by omega
  have hcall : ∀ᶠ s in 𝓝 t, (D s).call bq R 1 true = .ok (o s) := by
    filter_upwards [build_design h0 hV hhub htip hpc hps hax hR, hrun] with s h1 h2
    exact evaluate_component_call hafs h1 h2
  have hbi := build_interior (((x.withDesign (D t)).blade).args (D t).theta afs true) h0 hhub htip (D t).precurve (D t).presweep
      (D t).precurveTip (D t).presweepTip rfl rfl rfl rfl hpc.self_of_nhds hps.self_of_nhds
  have hReq := Except.ok.inj (hR.symm.trans hbi)
  have hit : R.iterRe = 1 := by rw [hReq]; rfl
  have hinv : R.inv = none := by rw [hReq]
  have hex : ∀ s, ∃ out, ∀ o, (x.withDesign (D s)).run fit bq true = .ok o → (x.withDesign (D s)).compute fit bq = .ok out := by
    intro s
    by_cases h : ∃ o, (x.withDesign (D s)).run fit bq true = .ok o
    · obtain ⟨o, ho⟩ := h
      obtain ⟨out, -, h1, -⟩ := evaluate_component fit bq _ _ ho
      exact ⟨out, fun _ _ => h1⟩
    · exact ⟨⟨0, 0, fun _ => 0, fun _ => 0, 0, 0, fun _ => 0, fun _ => 0⟩, fun o ho => absurd ⟨o, ho⟩ h⟩
  choose out hout using hex
  have hout : ∀ᶠ s in 𝓝 t, (x.withDesign (D s)).compute fit bq = .ok (out s) := hrun.mono fun s hs => hout s _ hs
  have hV' := hV
  rw [← hRn] at hV' hn hind hP hphi hroot hsec hr
  rw [← haf] at hind hroot
  obtain ⟨L, hL, hload⟩ := sector_dictionaries bq R hn hder hit hinv 1 true D V t hV' o hcall 0 (by norm_num) hind P hP hphi hroot hsec hr
  rw [hRn] at hload
  obtain ⟨J, hJ, hj1⟩ := evaluate_component_jacobian_partial fit bq x D V t h0 hV hhub htip hpc hps hax afs hafs R hR o hrun out hout
    L hL hload hreg
  refine ⟨out, J, hout, hJ, hj1, fun hrho hU hrad hOm => ?_⟩
  obtain ⟨J', hJ', hj2⟩ := evaluate_component_coefficient_jacobian_partial fit bq x D V t h0 hV hhub htip hpc hps hax afs hafs R hR o
    hrun out hout L hL hload hreg hrho hU hrad hOm
  obtain rfl := Except.ok.inj (hJ.symm.trans hJ')
  exact hj2

/-! The component with the rotor `fullCurve` meets the hypotheses. -/

/-- Three blades, constant lift. -/
noncomputable def fullEval : EvalIn ℝ := ⟨dictBlade.blade, fun _ => 0, 0, 0, 0⟩

/-- The object it builds, up to the geometry. -/
noncomputable def fullRotor (afs : List (CCAf ℝ)) : Rotor ℝ := { dictRotor with af := afList afs }

theorem fullEval_build (s : ℝ) (afs : List (CCAf ℝ)) :
    (((fullEval.withDesign (fullCurve s)).blade).args (fullCurve s).theta afs true).build = .ok ((fullCurve s).rotor (fullRotor afs)) := by
  rw [build_interior _ (by simp [BladeIn.args, EvalIn.withDesign, fullEval, dictBlade, plainBlade])
    (by norm_num [BladeIn.args, EvalIn.withDesign, fullEval, dictBlade, plainBlade, fullCurve])
    (by norm_num [BladeIn.args, EvalIn.withDesign, fullEval, dictBlade, plainBlade, fullCurve]) (fun _ => 0) (fun _ => 0) 0 0
    rfl rfl rfl rfl (.inr rfl) (.inr rfl)]
  simp [BladeIn.args, EvalIn.withDesign, fullEval, dictBlade, plainBlade, fullCurve, fullRotor, dictRotor, reRotor, demoRotor, num_real,
    real_deg2rad, RotorDesign.rotor]

theorem plainAirfoil_eq : plainAirfoil = reAirfoil 0 := by
  simp only [reAirfoil, plainAirfoil]
  simp

theorem fullEval_call {afs : List (CCAf ℝ)} (hl : ∀ i < 3, afList afs i = plainAirfoil) (s az : ℝ) :
    ((fullCurve s).cond 0 az).call dictBq (fullRotor afs) = ((fullCurve s).cond 0 az).call dictBq dictRotor := by
  refine loads_af dictBq (((fullCurve s).cond 0 az).rotor dictRotor) (afList afs) (fun i hi => ?_) _ _ _ _
  rw [hl i hi, plainAirfoil_eq]
  rfl

theorem fullEval_call' (afs : List (CCAf ℝ)) (s az : ℝ) :
    ((fullCurve s).cond 0 az).call dictBq ((fullCurve 1).rotor (fullRotor afs)) = ((fullCurve s).cond 0 az).call dictBq (fullRotor afs) :=
  loads_frame dictBq (((fullCurve s).cond 0 az).rotor (fullRotor afs)) _ _ _ _ _ _ _ _

theorem fullEval_run {afs : List (CCAf ℝ)} (hafs : plainTables.airfoils cornerFit 0 3 = .ok afs)
    (hl : ∀ i < 3, afList afs i = plainAirfoil) {s : ℝ} (hs : 0 < s) :
    ∃ o, (fullEval.withDesign (fullCurve s)).run cornerFit dictBq true = .ok o := by
  obtain ⟨acc, h⟩ := (condAcc_ok_iff dictBq ((fullCurve s).rotor (fullRotor afs))
    ⟨(fullCurve s).Uinf 0, (fullCurve s).Omega 0, (fullCurve s).pitch 0⟩).mpr fun k hk => by
      obtain ⟨L, hL⟩ := fullCurve_loads hs 0 (k * (360 / ((fullCurve s).rotor (fullRotor afs)).nSector))
      exact ⟨L, by rw [RotorDesign.loads_eq, fullEval_call hl]; exact hL⟩
  obtain ⟨W, hW⟩ := Option.isSome_iff_exists.mp ((condAcc_W h).mpr (by simp [RotorDesign.rotor, fullRotor, dictRotor, reRotor, demoRotor]))
  obtain ⟨o, ho⟩ : ∃ o, (evaluate dictBq ((fullCurve s).rotor (fullRotor afs))
      [⟨(fullCurve s).Uinf 0, (fullCurve s).Omega 0, (fullCurve s).pitch 0⟩] true).2 = .ok o :=
    ⟨⟨_, W⟩, (evaluate_single _ _ _ _ _).mpr ⟨acc, h, hW, rfl⟩⟩
  refine ⟨o, ?_⟩
  unfold EvalIn.run
  have e1 : (fullEval.withDesign (fullCurve s)).blade.af.airfoils cornerFit 0 (fullEval.withDesign (fullCurve s)).blade.n = .ok afs := hafs
  have e2 : ((fullEval.withDesign (fullCurve s)).blade.args (fullEval.withDesign (fullCurve s)).theta afs true).build = _ :=
    fullEval_build s afs
  simp only [e1, e2, Bind.bind, Except.bind]
  exact ho

/-- The hypotheses of `evaluate_component_total_partial` are met: the torque. -/
example : ∃ (out : ℝ → EvalCompOut ℝ) (J : Jac ℝ),
    (∀ᶠ s in 𝓝 (1 : ℝ), (fullEval.withDesign (fullCurve s)).compute cornerFit dictBq = .ok (out s)) ∧
    (fullEval.withDesign (fullCurve 1)).partials cornerFit dictBq = .ok J ∧
    HasDerivAt (fun s => (out s).get "Mhub" 0) (evalApply 3 J "Mhub" fullVel 0) 1 := by
  obtain ⟨afs, hafs, -, hl⟩ := plainTables_airfoils 3
  have hex : ∀ s, ∃ o, 0 < s → (fullEval.withDesign (fullCurve s)).run cornerFit dictBq true = .ok o := fun s => by
    by_cases hs : 0 < s
    · obtain ⟨o, ho⟩ := fullEval_run hafs hl hs
      exact ⟨o, fun _ => ho⟩
    · exact ⟨⟨[], fun _ => 0⟩, fun h => absurd h hs⟩
  choose o ho using hex
  have hpos : ∀ᶠ s in 𝓝 (1 : ℝ), 0 < s := lt_mem_nhds one_pos
  have haf : ∀ i < 3, afList afs i = reAirfoil 0 := fun i hi => by rw [hl i hi, plainAirfoil_eq]
  have hphi : ∀ k < ((fullCurve 1).rotor (fullRotor afs)).nSector, ∀ i < fullEval.blade.n, ∀ᶠ s in 𝓝 (1 : ℝ), ∀ L,
      ((fullCurve s).cond 0 (k * (360 / ((fullCurve 1).rotor (fullRotor afs)).nSector))).call dictBq ((fullCurve 1).rotor (fullRotor afs)) = .ok L →
      ∃ st, L.stations[i]? = some st ∧ st.phi = Real.pi / 4 := fun k _ i hi => hpos.mono fun s hs L hL => by
    rw [fullEval_call', fullEval_call hl] at hL
    exact fullCurve_phi hs 0 _ L hL i hi
  have hroot : ∀ k < ((fullCurve 1).rotor (fullRotor afs)).nSector, ∀ i < fullEval.blade.n, ∀ᶠ s in 𝓝 (1 : ℝ),
      (((fullCurve s).cond 0 (k * (360 / ((fullCurve 1).rotor (fullRotor afs)).nSector))).sec fullEval.blade.n i (Real.pi / 4)).residual
        ((fullCurve 1).rotor (fullRotor afs)) (afList afs i) = 0 := fun k _ i hi => hpos.mono fun s hs => by
    rw [show fullEval.blade.n = 3 from rfl, fullCurve_sec s 0 _ i hi, haf i hi]
    exact (fullCurve_ok hs hi).root
  have hsec : ∀ k < ((fullCurve 1).rotor (fullRotor afs)).nSector, ∀ i < fullEval.blade.n, DictRegular ((fullCurve 1).rotor (fullRotor afs))
      ((fullCurve 1).cond 0 (k * (360 / ((fullCurve 1).rotor (fullRotor afs)).nSector))) i (Real.pi / 4) := fun k hk i hi => by
    obtain rfl : k = 0 := by have : ((fullCurve 1).rotor (fullRotor afs)).nSector = 1 := rfl; omega
    obtain ⟨k1, k2, k3, k4, k5, k6, k7⟩ := fullCurve_dictRegular 0 i hi
    have e : ((fullCurve 1).rotor (fullRotor afs)).af i = reAirfoil 0 := haf i hi
    refine ⟨k1, k2, k3, k4, ?_, ?_, ?_⟩
    · rw [e]
      obtain ⟨⟨l1, l2, l3⟩, l4, l5, l6, l7⟩ := k5
      exact ⟨⟨l1, l2, l3⟩, l4, l5, l6, l7⟩
    · rw [e]
      exact k6
    · rw [e]
      exact k7
  obtain ⟨out, J, h1, h2, h3, -⟩ := evaluate_component_total_partial cornerFit dictBq fullEval fullCurve fullVel 1
    (by norm_num [fullEval, dictBlade, plainBlade]) (fullCurve_deriv 1 1) (by norm_num [fullCurve])
    (by norm_num [fullCurve, fullEval, dictBlade, plainBlade]) (Eventually.of_forall fun _ => .inr rfl)
    (Eventually.of_forall fun _ => .inr rfl) (Eventually.of_forall fun _ => Iff.rfl) afs hafs _ (fullEval_build 1 afs) o (hpos.mono ho)
    (fun i hi => by rw [haf i hi]; exact fun _ _ _ => by simp [reAirfoil]) (fun _ _ _ => Real.pi / 4)
    (fun _ _ _ _ => continuousAt_const) hphi hroot hsec fullCurve_regular (Or.inr fun _ _ => rfl)
  exact ⟨out, J, h1, h2, h3 ("Mhub", 0, fun x => x.acc.Q) (by simp [evalOutputs]) (by simp)⟩

end Verif
