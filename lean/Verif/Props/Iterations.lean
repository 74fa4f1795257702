import Verif.Props.RotorTotal

/-!
# Several passes for the Reynolds number (C109)

The constructor documents: "Gradients have only been implemented for the case iterRe=1".
-/

namespace Verif

open Filter Topology

/-! ## Specification -/

/-- The object with another number of passes. -/
def Rotor.iters {α : Type} (k : ℕ) (R : Rotor α) : Rotor α := { R with iterRe := k }

/-! ## Helpers -/

section
variable {α : Type} [Num α]

theorem pass_const {x : Sec α} (h : x.af.ReIndependent) (R : Rotor α) (pitch phi a ap a' ap' : α) :
    bemPass R pitch phi x a ap = bemPass R pitch phi x a' ap' := by
  simp only [bemPass, relativeWind]
  rw [h _ _ (R.rho * relSpeed phi a' ap' x.Vx x.Vy * x.chord / R.mu)]

theorem passes_const {x : Sec α} (h : x.af.ReIndependent) (R : Rotor α) (pitch phi a ap : α) : ∀ k,
    bemPasses R pitch phi x k (bemPass R pitch phi x a ap) = bemPass R pitch phi x a ap
  | 0 => rfl
  | k + 1 => by
    rw [bemPasses, pass_const h R pitch phi _ _ a ap]
    exact passes_const h R pitch phi a ap k

theorem runBEM_iters {x : Sec α} (h : x.af.ReIndependent) (R : Rotor α) (k m : ℕ) (pitch phi : α) :
    runBEM (R.iters k) pitch phi x = runBEM (R.iters m) pitch phi x := by
  simp only [runBEM, passes_const h]
  rfl

theorem errFun_iters {x : Sec α} (h : x.af.ReIndependent) (R : Rotor α) (k m : ℕ) (pitch : α) :
    errFun (R.iters k) pitch x = errFun (R.iters m) pitch x :=
  funext fun phi => by simp only [errFun, runBEM_iters h R k m]

theorem secValues_iters {x : Sec α} (h : x.af.ReIndependent) (R : Rotor α) (k m : ℕ) (pitch phi : α) (rot : Bool) :
    secValues (R.iters k) pitch phi rot x = secValues (R.iters m) pitch phi rot x := by
  simp only [secValues, runBEM_iters h R k m]
  rfl

theorem secLoads_iters {x : Sec α} (h : x.af.ReIndependent) (R : Rotor α) (k m : ℕ) (pitch phi : α) (rot : Bool) :
    secLoads (R.iters k) pitch phi rot x = secLoads (R.iters m) pitch phi rot x := by
  simp only [secLoads, secValues_iters h R k m]
  rfl

theorem solveStation_iters (bq : RootFinder α) (R : Rotor α) (i : ℕ) (h : (R.af i).ReIndependent) {k m : ℕ} (hk : k ≠ 0)
    (hm : m ≠ 0) (pitch Omega : α) (V : ℕ → α × α) :
    solveStation bq (R.iters k) pitch Omega V i = solveStation bq (R.iters m) pitch Omega V i := by
  have hx : ∀ th, stationSec (R.iters k) V i th = stationSec (R.iters m) V i th := fun _ => rfl
  have ha : ∀ th, (stationSec (R.iters m) V i th).af.ReIndependent := fun _ => h
  have he : stationErrf (R.iters k) pitch V i = stationErrf (R.iters m) pitch V i := by
    simp only [stationErrf]
    show (match R.inv with | some d => _ | none => _) = (match R.inv with | some d => _ | none => _)
    cases R.inv with
    | none => exact errFun_iters (ha _) R k m pitch
    | some d => rfl
  have ht : ∀ phi, stationTheta (R.iters k) pitch phi i = stationTheta (R.iters m) pitch phi i := fun _ => rfl
  have hk' : (R.iters k).iterRe ≠ 0 := hk
  have hm' : (R.iters m).iterRe ≠ 0 := hm
  simp only [solveStation, stationPhi, he, hk', hm', if_false, ht, hx, secLoads_iters (ha _) R k m]

theorem solveStations_iters (bq : RootFinder α) (R : Rotor α) (h : ∀ i < R.n, (R.af i).ReIndependent) {k m : ℕ} (hk : k ≠ 0)
    (hm : m ≠ 0) (pitch Omega : α) (V : ℕ → α × α) :
    solveStations bq (R.iters k) pitch Omega V R.n = solveStations bq (R.iters m) pitch Omega V R.n :=
  solveStations_congr fun i hi => solveStation_iters bq R i (h i hi) hk hm pitch Omega V

theorem loads_iters (bq : RootFinder α) (R : Rotor α) (h : ∀ i < R.n, (R.af i).ReIndependent) {k m : ℕ} (hk : k ≠ 0)
    (hm : m ≠ 0) (Uinf Omega pitch az : α) :
    distributedAeroLoads bq (R.iters k) Uinf Omega pitch az
      = ((distributedAeroLoads bq (R.iters m) Uinf Omega pitch az).1.iters k,
          (distributedAeroLoads bq (R.iters m) Uinf Omega pitch az).2) := by
  have hs := solveStations_iters bq R h hk hm (deg2rad pitch) Omega (rotorWind R Uinf Omega (deg2rad az))
  have hw : ∀ j, rotorWind (R.iters j) Uinf Omega (deg2rad az) = rotorWind R Uinf Omega (deg2rad az) := fun _ => rfl
  have hj : ∀ j st, loadJac (R.iters j) Uinf Omega (deg2rad az) st = loadJac R Uinf Omega (deg2rad az) st := fun _ _ => rfl
  have hn : ∀ j, (R.iters j).n = R.n := fun _ => rfl
  have hi : ∀ j, (R.iters j).inv = R.inv := fun _ => rfl
  have hd : ∀ j, (R.iters j).derivatives = R.derivatives := fun _ => rfl
  unfold distributedAeroLoads
  simp only [hw, hs, hj, hn, hi, hd]
  cases solveStations bq (R.iters m) (deg2rad pitch) Omega (rotorWind R Uinf Omega (deg2rad az)) R.n with
  | error e => rfl
  | ok s =>
    simp only
    cases R.inv <;> split_ifs <;> rfl

theorem sectorLoop_iters (bq : RootFinder α) (Uinf Omega pitch : α) {k m : ℕ} (hk : k ≠ 0) (hm : m ≠ 0) :
    ∀ (azs : List α) (R : Rotor α) (_ : ∀ i < R.n, (R.af i).ReIndependent) (acc : RotorAcc α),
      sectorLoop bq Uinf Omega pitch azs (R.iters k) acc
        = ((sectorLoop bq Uinf Omega pitch azs (R.iters m) acc).1.iters k,
            (sectorLoop bq Uinf Omega pitch azs (R.iters m) acc).2)
  | [], R, _, acc => rfl
  | az :: rest, R, h, acc => by
    have hl := loads_iters bq R h hk hm Uinf Omega pitch (rad2deg az)
    have hd := sameDesign_loads bq (R.iters m) Uinf Omega pitch (rad2deg az)
    simp only [sectorLoop]
    rw [hl]
    generalize distributedAeroLoads bq (R.iters m) Uinf Omega pitch (rad2deg az) = q at *
    obtain ⟨S, r⟩ := q
    cases r with
    | error e => rfl
    | ok L =>
      simp only at hd ⊢
      have hS : S = S.iters m := by
        obtain ⟨p, s, t, rfl, -⟩ := hd
        rfl
      have hR : ∀ i < S.n, (S.af i).ReIndependent := by
        obtain ⟨p, s, t, rfl, -⟩ := hd
        exact h
      have := sectorLoop_iters bq Uinf Omega pitch hk hm rest S hR (sectorStep S az L acc)
      rw [← hS] at this
      exact this

theorem evaluate_iters (bq : RootFinder α) (R : Rotor α) (h : ∀ i < R.n, (R.af i).ReIndependent) {k m : ℕ} (hk : k ≠ 0)
    (hm : m ≠ 0) (cs : List (Cond α)) (co : Bool) :
    (evaluate bq (R.iters k) cs co).2 = (evaluate bq (R.iters m) cs co).2 := by
  have hc : condAcc bq (R.iters k) = condAcc bq (R.iters m) := funext fun c => by
    unfold condAcc
    rw [sectorLoop_iters bq _ _ _ hk hm _ R h]
    rfl
  rw [evaluate_collect, evaluate_collect, hc]
  rfl

end

theorem iters_self {α : Type} (R : Rotor α) : R.iters R.iterRe = R := rfl

/-! ## C109 -/

/-- **C109** For airfoils whose coefficients do not depend on the Reynolds number the number of passes is without influence:
any two positive numbers of passes give the same loads, the same derivatives, the same exceptions and the same object
(apart from that number). -/
theorem loads_iterations {α : Type} [Num α] (bq : RootFinder α) (R : Rotor α) (h : ∀ i < R.n, (R.af i).ReIndependent)
    (k : ℕ) (hk : 1 ≤ k) (hR : 1 ≤ R.iterRe) (Uinf Omega pitch az : α) :
    distributedAeroLoads bq { R with iterRe := k } Uinf Omega pitch az
      = ({ (distributedAeroLoads bq R Uinf Omega pitch az).1 with iterRe := k },
          (distributedAeroLoads bq R Uinf Omega pitch az).2) :=
  loads_iters bq R h (by omega : k ≠ 0) (by omega : R.iterRe ≠ 0) Uinf Omega pitch az

/-- **C109** The same for the rotor outputs and their derivatives. -/
theorem evaluate_iterations {α : Type} [Num α] (bq : RootFinder α) (R : Rotor α) (h : ∀ i < R.n, (R.af i).ReIndependent)
    (k : ℕ) (hk : 1 ≤ k) (hR : 1 ≤ R.iterRe) (cs : List (Cond α)) (co : Bool) :
    (evaluate bq { R with iterRe := k } cs co).2 = (evaluate bq R cs co).2 :=
  evaluate_iters bq R h (by omega : k ≠ 0) (by omega : R.iterRe ≠ 0) cs co

theorem residual_iters {af : AirfoilI ℝ} (h : af.ReIndependent) (R : Rotor ℝ) (k m : ℕ) (x : SecIn) :
    x.residual (R.iters k) af = x.residual (R.iters m) af :=
  congrFun (errFun_iters (x := x.sec af) h (x.rotor R) k m x.pitch) x.phi

theorem secLoads_real_iters {af : AirfoilI ℝ} (h : af.ReIndependent) (R : Rotor ℝ) (k m : ℕ) (x : SecIn) :
    x.loads (R.iters k) af = x.loads (R.iters m) af :=
  secValues_iters (x := x.sec af) h (x.rotor R) k m x.pitch x.phi true

theorem derivs_iters {af : AirfoilI ℝ} (h : af.ReIndependent) (R : Rotor ℝ) (k m : ℕ) (x : SecIn) :
    x.derivs (R.iters k) af = x.derivs (R.iters m) af := by
  simp only [SecIn.derivs, secLoads_real_iters h R k m]
  rfl

theorem loadRegular_iters {af : AirfoilI ℝ} (h : af.ReIndependent) (R : Rotor ℝ) (k m : ℕ) (x : SecIn)
    (hx : LoadRegular (R.iters k) af x) : LoadRegular (R.iters m) af x := by
  have e := secLoads_real_iters h R k m x
  refine ⟨⟨hx.chord, hx.ind, hx.airfoil⟩, ?_, ?_, ?_, ?_⟩
  · have := hx.rel
    simp only [SecIn.rel, e] at this
    exact this
  · rw [← e]; exact hx.W
  · rw [← e]; exact hx.cn
  · rw [← e]; exact hx.ct

theorem dictRegular_iters (R : Rotor ℝ) (k m : ℕ) (D : Design) (i : ℕ) (h : (R.af i).ReIndependent) (phi : ℝ)
    (hx : DictRegular (R.iters k) D i phi) : DictRegular (R.iters m) D i phi := by
  refine ⟨hx.cone, hx.hubHt, hx.height, hx.Omega, loadRegular_iters h R k m _ hx.loads, ?_, ?_⟩
  · have := hx.airfoil
    rw [show ((R.iters k).af i) = R.af i from rfl, secLoads_real_iters h R k m] at this
    exact this
  · have := hx.residual
    rw [show ((R.iters k).af i) = R.af i from rfl, derivs_iters h R k m] at this
    exact this

/-- **C109** For these airfoils the dictionaries of `distributedAeroLoads` are the derivatives of the loads for every number of
passes, under the hypotheses of `loads_dictionary`. -/
theorem loads_dictionary_iterations (bq : RootFinder ℝ) (R : Rotor ℝ) (hn : 2 ≤ R.n) (hder : R.derivatives = true)
    (hit : 1 ≤ R.iterRe) (hinv : R.inv = none) (D : ℝ → Design) (V : Design) (t : ℝ) (hV : Design.HasDeriv R.n D V t)
    (L : ℝ → LoadsOut ℝ) (hcall : ∀ᶠ s in 𝓝 t, (D s).call bq R = .ok (L s)) (i : ℕ) (hi : i < R.n)
    (hind : ∀ j < R.n, (R.af j).ReIndependent) (P : ℝ → ℝ) (hPc : ContinuousAt P t)
    (hphi : ∀ᶠ s in 𝓝 t, ∃ st, (L s).stations[i]? = some st ∧ st.phi = P s)
    (hroot : ∀ᶠ s in 𝓝 t, ((D s).sec R.n i (P s)).residual R (R.af i) = 0)
    (hreg : DictRegular R (D t) i (P t))
    (hr : (∀ j < R.n, j ≠ i → V.r j = 0) ∨ ∀ j < R.n, (D t).precurve j = (D t).precurve 0) :
    HasDerivAt (fun s => stationArr (L s).stations SecLoads.Np i) (dictApply R.n (L t).dNp V i) t ∧
    HasDerivAt (fun s => stationArr (L s).stations SecLoads.Tp i) (dictApply R.n (L t).dTp V i) t := by
  refine loads_dictionary bq (R.iters 1) hn hder rfl hinv D V t hV L ?_ i hi (hind i hi) P hPc hphi ?_ ?_ hr
  · refine hcall.mono fun s hs => ?_
    have := loads_iters bq ((D s).rotor R) hind (m := R.iterRe) one_ne_zero (by omega) (D s).Uinf (D s).Omega (D s).pitch
      (D s).azimuth
    exact (congrArg Prod.snd this).trans hs
  · exact hroot.mono fun s hs => (residual_iters (hind i hi) R 1 R.iterRe _).trans hs
  · exact dictRegular_iters R R.iterRe 1 (D t) i (hind i hi) _ hreg

/-- **C109** The same for the dictionaries of `evaluate`, under the hypotheses of `rotor_dictionary_total`. -/
theorem rotor_dictionary_iterations (bq : RootFinder ℝ) (R : Rotor ℝ) (hn : 2 ≤ R.n) (hder : R.derivatives = true)
    (hit : 1 ≤ R.iterRe) (hinv : R.inv = none) (npts : ℕ) (co : Bool) (D : ℝ → RotorDesign) (V : RotorDesign) (t : ℝ)
    (hV : RotorDesign.HasDeriv R.n npts D V t) (o : ℝ → EvalOut ℝ)
    (hcall : ∀ᶠ s in 𝓝 t, (D s).call bq R npts co = .ok (o s)) (m : ℕ) (hm : m < npts)
    (hind : ∀ i < R.n, (R.af i).ReIndependent)
    (P : ℕ → ℕ → ℝ → ℝ) (hP : ∀ k < R.nSector, ∀ i < R.n, ContinuousAt (P k i) t)
    (hphi : ∀ k < R.nSector, ∀ i < R.n, ∀ᶠ s in 𝓝 t, ∀ L, ((D s).cond m (k * (360 / R.nSector))).call bq R = .ok L →
      ∃ st, L.stations[i]? = some st ∧ st.phi = P k i s)
    (hroot : ∀ k < R.nSector, ∀ i < R.n, ∀ᶠ s in 𝓝 t,
      (((D s).cond m (k * (360 / R.nSector))).sec R.n i (P k i s)).residual R (R.af i) = 0)
    (hsec : ∀ k < R.nSector, ∀ i < R.n, DictRegular R ((D t).cond m (k * (360 / R.nSector))) i (P k i t))
    (hreg : ((D t).blade (fun _ => 0) (fun _ => 0)).Regular R.n)
    (hr : (∀ j < R.n, V.r j = 0) ∨ ∀ j < R.n, (D t).precurve j = (D t).precurve 0) :
    ∀ f ∈ [fun x : CondOut ℝ => x.acc.T, fun x => x.acc.Y, fun x => x.acc.Z, fun x => x.acc.Q, fun x => x.acc.My,
        fun x => x.acc.Mz, fun x => x.acc.Mb, fun x => x.P],
      HasDerivAt (fun s => outputAt (o s) f m) (rotorApply R.n npts (outputDict R.n (o t) f) V m) t := by
  refine rotor_dictionary_total bq (R.iters 1) hn hder rfl hinv npts co D V t hV o ?_ m hm hind P hP ?_ ?_ ?_ hreg hr
  · refine hcall.mono fun s hs => ?_
    exact (evaluate_iters bq ((D s).rotor R) hind (k := 1) (m := R.iterRe) one_ne_zero (by omega) ((D s).conds npts) co).trans hs
  · intro k hk i hi
    refine (hphi k hk i hi).mono fun s hs L hL => hs L ?_
    have := loads_iters bq (((D s).cond m (k * (360 / R.nSector))).rotor R) hind (k := 1) (m := R.iterRe) one_ne_zero
      (by omega) ((D s).cond m (k * (360 / R.nSector))).Uinf ((D s).cond m (k * (360 / R.nSector))).Omega
      ((D s).cond m (k * (360 / R.nSector))).pitch ((D s).cond m (k * (360 / R.nSector))).azimuth
    exact (congrArg Prod.snd this).symm.trans hL
  · intro k hk i hi
    exact (hroot k hk i hi).mono fun s hs => (residual_iters (hind i hi) R 1 R.iterRe _).trans hs
  · intro k hk i hi
    exact dictRegular_iters R R.iterRe 1 _ i (hind i hi) _ (hsec k hk i hi)

/-- **C109** (partial) What is reported for other numbers of passes and other airfoils: the derivatives of the residual of one
pass.  Missing is that they are refused, or right for the residual that is solved (`iterations_derivatives_false`). -/
theorem iterations_residual_partial (R : Rotor ℝ) (af : AirfoilI ℝ) (X : ℝ → SecIn) (d : SecIn) (t : ℝ)
    (hX : SecIn.HasDeriv X d t) (h : SecRegular R af (X t)) :
    let D := residualDerivatives ((X t).rotor R) (X t).pitch (X t).phi ((X t).sec af)
    HasDerivAt (fun s => (X s).residual { R with iterRe := 1 } af) (∑ j ∈ Finset.range 9, d.get j * (D j).fzerod) t ∧
    (HasDerivAt (fun s => (X s).residual R af) (∑ j ∈ Finset.range 9, d.get j * (D j).fzerod) t ↔
      HasDerivAt (fun s => (X s).residual R af - (X s).residual { R with iterRe := 1 } af) 0 t) := by
  intro D
  have h1 : HasDerivAt (fun s => (X s).residual (R.iters 1) af) (∑ j ∈ Finset.range 9, d.get j * (D j).fzerod) t :=
    (residualDerivatives_correct (R.iters 1) rfl af X d t hX ⟨h.chord, h.ind, h.airfoil⟩).1
  refine ⟨h1, fun h2 => (h2.sub h1).congr_deriv (sub_self _), fun h2 => ?_⟩
  have := h2.add h1
  rw [zero_add] at this
  refine this.congr_of_eventuallyEq (Eventually.of_forall fun s => ?_)
  exact (sub_add_cancel _ _).symm

/-! ## A rotor with a first station whose lift depends on the Reynolds number

The blade of `fullCurve`; the lift of the first station is constant below a Reynolds number that the first pass exceeds and
the second does not.  The solution does not depend on its twist. -/

/-- Lift one below the Reynolds number, and proportional to the angle of attack above. -/
noncomputable def twoAirfoil : AirfoilI ℝ where
  evaluate alpha Re := if Re < 19 / 2 * fullChord 6 then (1, 0) else (2 / Real.pi * alpha, 0)
  dclda _ Re := if Re < 19 / 2 * fullChord 6 then 0 else 2 / Real.pi
  dcldRe _ _ := 0
  dcdda _ _ := 0
  dcddRe _ _ := 0

noncomputable def twoRotor : Rotor ℝ :=
  { dictRotor with iterRe := 2, af := fun i => if i = 0 then twoAirfoil else reAirfoil 0 }

/-- The design whose first station has the twist `s` degrees. -/
noncomputable def twoCurve (s : ℝ) : Design :=
  { (fullCurve 1).cond 0 0 with theta := fun j => if j = 0 then s else 0 }

/-- The velocity of this curve. -/
noncomputable def twoVel : Design := { fullVel.cond 0 0 with theta := fun j => if j = 0 then 1 else 0, Uinf := 0, Omega := 0 }

noncomputable def twoSec (phi theta : ℝ) : SecIn := { fullSec 1 6 phi with theta := theta }

theorem fullOk6 : FullOk 1 6 := ⟨one_pos, by norm_num, by norm_num⟩

theorem fullChord6_pos : 0 < fullChord 6 := fullOk6.chord

theorem twoSec_Re0 (phi theta : ℝ) : (twoSec phi theta).Re0 twoRotor = 10 * fullChord 6 := by
  have : Real.sqrt ((8 : ℝ) ^ 2 + 6 ^ 2) = 10 := by
    rw [show ((8 : ℝ) ^ 2 + 6 ^ 2) = 10 ^ 2 by norm_num]
    exact Real.sqrt_sq (by norm_num)
  simp [SecIn.Re0, twoSec, fullSec, twoRotor, dictRotor, reRotor, this]

theorem twoSec_ind (phi theta : ℝ) : (twoSec phi theta).ind (twoRotor.iters 1) twoAirfoil
    = ⟨6, fullChord 6, 1, 10, phi, 2 / Real.pi * (phi - theta), 0, 8, 6⟩ := by
  have h := twoSec_Re0 phi theta
  have hc := fullChord6_pos
  have h' : (twoSec phi theta).Re0 (twoRotor.iters 1) = 10 * fullChord 6 := h
  simp only [SecIn.ind, h']
  have : ¬ (10 * fullChord 6 < 19 / 2 * fullChord 6) := by linarith
  simp [twoAirfoil, this, twoSec, fullSec, SecIn.alpha]

theorem kSpec_scale (B : ℕ) (r chord Rhub Rtip phi cl : ℝ) :
    kSpec ⟨false, false, false, false⟩ B r chord Rhub Rtip phi cl 0
      = cl * kSpec ⟨false, false, false, false⟩ B r chord Rhub Rtip phi 1 0 := by
  simp only [Verif.kSpec, lossSpec, cnSpec, Bool.false_eq_true, if_false]
  ring

theorem two_kSpec (phi cl : ℝ) : kSpec ⟨false, false, false, false⟩ 3 6 (fullChord 6) 1 10 phi cl 0
    = cl * (Real.sqrt 2 / 6 * (Real.cos phi / Real.sin phi ^ 2)) := by
  rw [kSpec_scale, fullOk6.kSpec]
  ring

theorem cot_quarter : Real.cos (Real.pi / 4) / Real.sin (Real.pi / 4) ^ 2 = Real.sqrt 2 := by
  rw [Real.sin_pi_div_four, Real.cos_pi_div_four]
  have h2 : Real.sqrt 2 ^ 2 = 2 := Real.sq_sqrt (by norm_num)
  have h2p : Real.sqrt 2 ≠ 0 := by positivity
  field_simp
  linarith

theorem two_k (cl : ℝ) : kSpec ⟨false, false, false, false⟩ 3 6 (fullChord 6) 1 10 (Real.pi / 4) cl 0 = cl / 3 := by
  rw [two_kSpec, cot_quarter]
  have h2 : Real.sqrt 2 * Real.sqrt 2 = 2 := Real.mul_self_sqrt (by norm_num)
  linear_combination cl / 6 * h2

/-- One pass. -/
theorem two_out {phi cl : ℝ} (hp : 0 < phi) (hs : Real.sin phi ≠ 0)
    (hk0 : 0 < cl * (Real.sqrt 2 / 6 * (Real.cos phi / Real.sin phi ^ 2)))
    (hk1 : cl * (Real.sqrt 2 / 6 * (Real.cos phi / Real.sin phi ^ 2)) ≤ 2 / 3) :
    let k := cl * (Real.sqrt 2 / 6 * (Real.cos phi / Real.sin phi ^ 2))
    let o := inductionFactors 6 (fullChord 6) 1 10 phi cl 0 3 8 6 ⟨false, false, false, false⟩
    o.a = k / (1 + k) ∧ o.ap = 0 ∧ o.fzero = Real.sin phi * (1 + k) - 4 / 3 * Real.cos phi := by
  intro k o
  obtain ⟨h1, h2, h3⟩ := indOut_eq 6 (fullChord 6) 1 10 phi cl 0 3 8 6 ⟨false, false, false, false⟩
  rw [two_kSpec, axial_momentum hp hk1] at h1 h3
  refine ⟨h1, h2, h3.trans ?_⟩
  simp only [bemResidual, hp, if_true, Bool.false_eq_true, if_false]
  have e2 : ∀ k : ℝ, 0 < k → Real.sin phi / (1 - k / (1 + k)) = Real.sin phi * (1 + k) := by
    intro k hk
    have : 1 - k / (1 + k) = 1 / (1 + k) := by field_simp; ring
    rw [this]
    field_simp
  rw [e2 _ hk0]
  norm_num [num_real]
  ring

theorem two_out_quarter {cl : ℝ} (h0 : 0 < cl) (h1 : cl ≤ 1) :
    let o := inductionFactors 6 (fullChord 6) 1 10 (Real.pi / 4) cl 0 3 8 6 ⟨false, false, false, false⟩
    o.a = cl / (3 + cl) ∧ o.ap = 0 ∧ o.fzero = Real.sqrt 2 / 2 * (cl - 1) / 3 := by
  have e : cl * (Real.sqrt 2 / 6 * (Real.cos (Real.pi / 4) / Real.sin (Real.pi / 4) ^ 2)) = cl / 3 := by
    rw [← two_kSpec, two_k]
  obtain ⟨a1, a2, a3⟩ := two_out (cl := cl) reOk.pos reOk.sin.ne' (by rw [e]; linarith) (by rw [e]; linarith)
  rw [e] at a1 a3
  refine ⟨a1.trans ?_, a2, a3.trans ?_⟩
  · field_simp
  · rw [Real.sin_pi_div_four, Real.cos_pi_div_four]
    ring

theorem two_relSpeed {a : ℝ} (h0 : 0 ≤ a) (h1 : a ≤ 1) (phi : ℝ) :
    relSpeed phi a 0 8 6 = Real.sqrt ((8 * (1 - a)) ^ 2 + 6 ^ 2) := by
  simp only [relSpeed, num_real, abs_zero, abs_of_nonneg h0]
  rw [if_neg (by push_cast; linarith), if_neg (by push_cast; norm_num)]
  ring_nf

/-- For a small twist the second pass uses the constant lift, and the result is that of `fullSec`. -/
theorem two_runBEM {theta : ℝ} (h : |theta| < Real.pi / 16) :
    runBEM ((twoSec (Real.pi / 4) theta).rotor twoRotor) 0 (Real.pi / 4) ((twoSec (Real.pi / 4) theta).sec twoAirfoil)
      = ⟨0, 1 / 4, 0, 1, 0⟩ := by
  have hpi := Real.pi_pos
  have hpi0 := Real.pi_ne_zero
  obtain ⟨t0, t1⟩ := abs_lt.mp h
  have hc := fullChord6_pos
  have hfirst : bemPass ((twoSec (Real.pi / 4) theta).rotor twoRotor) 0 (Real.pi / 4)
      ((twoSec (Real.pi / 4) theta).sec twoAirfoil) 0 0
      = ⟨((((twoSec (Real.pi / 4) theta).ind (twoRotor.iters 1) twoAirfoil).eval 3 ⟨false, false, false, false⟩).fzero),
        (((twoSec (Real.pi / 4) theta).ind (twoRotor.iters 1) twoAirfoil).eval 3 ⟨false, false, false, false⟩).a,
        (((twoSec (Real.pi / 4) theta).ind (twoRotor.iters 1) twoAirfoil).eval 3 ⟨false, false, false, false⟩).ap,
        ((twoSec (Real.pi / 4) theta).ind (twoRotor.iters 1) twoAirfoil).cl,
        ((twoSec (Real.pi / 4) theta).ind (twoRotor.iters 1) twoAirfoil).cd⟩ :=
    SecIn.runBEM_eq (twoRotor.iters 1) rfl twoAirfoil (twoSec (Real.pi / 4) theta)
  have hcl0 : 3 / 8 < 2 / Real.pi * (Real.pi / 4 - theta) := by
    rw [div_mul_eq_mul_div, lt_div_iff₀ hpi]; linarith
  have hcl1 : 2 / Real.pi * (Real.pi / 4 - theta) ≤ 1 := by
    rw [div_mul_eq_mul_div, div_le_one hpi]; linarith
  generalize hcl : 2 / Real.pi * (Real.pi / 4 - theta) = cl at *
  obtain ⟨a1, a2, -⟩ := two_out_quarter (cl := cl) (by linarith) hcl1
  rw [twoSec_ind, hcl] at hfirst
  have hsecond : relSpeed (Real.pi / 4) (cl / (3 + cl)) 0 8 6 < 19 / 2 := by
    have e : 1 - cl / (3 + cl) = 3 / (3 + cl) := by field_simp; ring
    have hp : 0 < 3 + cl := by linarith
    rw [two_relSpeed (by positivity) (by rw [div_le_one hp]; linarith), e, Real.sqrt_lt' (by norm_num)]
    have : 8 * (3 / (3 + cl)) < 65 / 9 := by
      rw [← mul_div_assoc, div_lt_iff₀ hp]; linarith
    have h3 : 0 < 8 * (3 / (3 + cl)) := by positivity
    nlinarith
  obtain ⟨b1, b2, b3⟩ := two_out_quarter (cl := 1) one_pos le_rfl
  show bemPasses _ _ _ _ 1 _ = _
  rw [bemPasses, bemPasses, hfirst]
  have ea : (IndIn.eval ⟨6, fullChord 6, 1, 10, Real.pi / 4, cl, 0, 8, 6⟩ 3 ⟨false, false, false, false⟩ : IndOut ℝ).a
      = cl / (3 + cl) := a1
  have eap : (IndIn.eval ⟨6, fullChord 6, 1, 10, Real.pi / 4, cl, 0, 8, 6⟩ 3 ⟨false, false, false, false⟩ : IndOut ℝ).ap
      = 0 := a2
  simp only [ea, eap, bemPass, relativeWind]
  have hre : ∀ al, ((twoSec (Real.pi / 4) theta).sec twoAirfoil).af.evaluate al
      (((twoSec (Real.pi / 4) theta).rotor twoRotor).rho * relSpeed (Real.pi / 4) (cl / (3 + cl)) 0
        ((twoSec (Real.pi / 4) theta).sec twoAirfoil).Vx ((twoSec (Real.pi / 4) theta).sec twoAirfoil).Vy
        * ((twoSec (Real.pi / 4) theta).sec twoAirfoil).chord / ((twoSec (Real.pi / 4) theta).rotor twoRotor).mu) = (1, 0) := by
    intro al
    have ev : (((twoSec (Real.pi / 4) theta).rotor twoRotor).rho * relSpeed (Real.pi / 4) (cl / (3 + cl)) 0
        ((twoSec (Real.pi / 4) theta).sec twoAirfoil).Vx ((twoSec (Real.pi / 4) theta).sec twoAirfoil).Vy
        * ((twoSec (Real.pi / 4) theta).sec twoAirfoil).chord / ((twoSec (Real.pi / 4) theta).rotor twoRotor).mu)
        = relSpeed (Real.pi / 4) (cl / (3 + cl)) 0 8 6 * fullChord 6 := by
      simp [SecIn.rotor, SecIn.sec, twoSec, fullSec, twoRotor, dictRotor, reRotor]
    rw [ev]
    simp only [SecIn.sec, twoAirfoil]
    rw [if_pos (by nlinarith)]
  simp only [hre]
  have e : inductionFactors ((twoSec (Real.pi / 4) theta).sec twoAirfoil).r ((twoSec (Real.pi / 4) theta).sec twoAirfoil).chord
      ((twoSec (Real.pi / 4) theta).rotor twoRotor).Rhub ((twoSec (Real.pi / 4) theta).rotor twoRotor).Rtip (Real.pi / 4) 1 0
      ((twoSec (Real.pi / 4) theta).rotor twoRotor).B ((twoSec (Real.pi / 4) theta).sec twoAirfoil).Vx
      ((twoSec (Real.pi / 4) theta).sec twoAirfoil).Vy ((twoSec (Real.pi / 4) theta).rotor twoRotor).opts
      = inductionFactors 6 (fullChord 6) 1 10 (Real.pi / 4) 1 0 3 8 6 ⟨false, false, false, false⟩ := by
    simp [SecIn.rotor, SecIn.sec, twoSec, fullSec, twoRotor, dictRotor, reRotor, demoRotor]
  rw [e, b1, b2, b3]
  norm_num

theorem two_W : relSpeed (Real.pi / 4) (1 / 4) 0 8 6 = Real.sqrt 72 := by
  rw [two_relSpeed (by norm_num) (by norm_num)]
  norm_num

theorem two_W_lt : Real.sqrt 72 < 19 / 2 := by
  rw [Real.sqrt_lt' (by norm_num)]
  norm_num

/-- The loads, apart from the angle of attack, do not depend on the twist. -/
theorem two_loads {theta : ℝ} (h : |theta| < Real.pi / 16) :
    let l := (twoSec (Real.pi / 4) theta).loads twoRotor twoAirfoil
    l.a = 1 / 4 ∧ l.ap = 0 ∧ l.cl = 1 ∧ l.cd = 0 ∧ l.cn = Real.sqrt 2 / 2 ∧ l.W = Real.sqrt 72 ∧
    l.Np = Real.sqrt 2 / 2 * 36 * fullChord 6 := by
  have hb := two_runBEM h
  have e1 : (twoSec (Real.pi / 4) theta).pitch = 0 := rfl
  have e2 : (twoSec (Real.pi / 4) theta).phi = Real.pi / 4 := rfl
  have h72 : Real.sqrt 72 ^ 2 = 72 := Real.sq_sqrt (by norm_num)
  simp only [SecIn.loads, secValues, e1, e2, hb, if_true, relativeWind]
  have hW : relSpeed (Real.pi / 4) (1 / 4) 0 ((twoSec (Real.pi / 4) theta).sec twoAirfoil).Vx
      ((twoSec (Real.pi / 4) theta).sec twoAirfoil).Vy = Real.sqrt 72 := by
    rw [← two_W]
    simp [SecIn.sec, twoSec, fullSec]
  have hc : ((twoSec (Real.pi / 4) theta).sec twoAirfoil).chord = fullChord 6 := rfl
  have hr : ((twoSec (Real.pi / 4) theta).rotor twoRotor).rho = 1 := rfl
  rw [hW, hc, hr]
  refine ⟨trivial, trivial, trivial, trivial, ?_, rfl, ?_⟩
  · simp only [num_real, Real.cos_pi_div_four]
    ring
  · simp only [num_real, Real.cos_pi_div_four, h72]
    push_cast
    ring

theorem two_residual {theta : ℝ} (h : |theta| < Real.pi / 16) : (twoSec (Real.pi / 4) theta).residual twoRotor twoAirfoil = 0 := by
  have := congrArg BemOut.fzero (two_runBEM h)
  exact this

/-! The reported derivatives. -/

theorem two_diff (alpha : ℝ) : twoAirfoil.DiffAt alpha (10 * fullChord 6) := by
  have hc := fullChord6_pos
  have hne : ∀ᶠ p : ℝ × ℝ in 𝓝 (alpha, 10 * fullChord 6), ¬ (p.2 < 19 / 2 * fullChord 6) := by
    have : ∀ᶠ p : ℝ × ℝ in 𝓝 (alpha, 10 * fullChord 6), 19 / 2 * fullChord 6 < p.2 :=
      continuous_snd.continuousAt.eventually (lt_mem_nhds (by simp only; linarith))
    exact this.mono fun p hp => not_lt.mpr hp.le
  have hn : ¬ (10 * fullChord 6 < 19 / 2 * fullChord 6) := by linarith
  constructor
  · have h1 : HasFDerivAt (fun p : ℝ × ℝ => 2 / Real.pi * p.1) ((2 / Real.pi) • ContinuousLinearMap.fst ℝ ℝ ℝ) (alpha, 10 * fullChord 6) :=
      (hasFDerivAt_fst).const_mul _
    have e : twoAirfoil.dclda alpha (10 * fullChord 6) • ContinuousLinearMap.fst ℝ ℝ ℝ
        + twoAirfoil.dcldRe alpha (10 * fullChord 6) • ContinuousLinearMap.snd ℝ ℝ ℝ
        = (2 / Real.pi) • ContinuousLinearMap.fst ℝ ℝ ℝ := by
      simp [twoAirfoil, hn]
    rw [e]
    refine h1.congr_of_eventuallyEq (hne.mono fun p hp => ?_)
    simp [twoAirfoil, hp]
  · have h1 : HasFDerivAt (fun _ : ℝ × ℝ => (0 : ℝ)) (0 : ℝ × ℝ →L[ℝ] ℝ) (alpha, 10 * fullChord 6) := hasFDerivAt_const _ _
    have e : twoAirfoil.dcdda alpha (10 * fullChord 6) • ContinuousLinearMap.fst ℝ ℝ ℝ
        + twoAirfoil.dcddRe alpha (10 * fullChord 6) • ContinuousLinearMap.snd ℝ ℝ ℝ = 0 := by
      simp [twoAirfoil]
    rw [e]
    refine h1.congr_of_eventuallyEq (hne.mono fun p hp => ?_)
    simp [twoAirfoil, hp]

theorem two_cl : 2 / Real.pi * (Real.pi / 4 - 0) = 1 / 2 := by
  have := Real.pi_ne_zero
  rw [sub_zero]
  field_simp
  norm_num

theorem two_regular : SecRegular (twoRotor.iters 1) twoAirfoil (twoSec (Real.pi / 4) 0) := by
  refine ⟨fullChord6_pos.ne', ?_, ?_⟩
  · rw [twoSec_ind, two_cl]
    have hk := two_k (1 / 2)
    refine ⟨by norm_num, reOk.sin.ne', reOk.cos.ne', by simp [twoRotor, Rotor.iters, dictRotor, reRotor],
      by simp [twoRotor, Rotor.iters, dictRotor, reRotor], Or.inl ⟨reOk.pos, ?_, ?_⟩,
      by simp [twoRotor, Rotor.iters, dictRotor, reRotor], by norm_num, by norm_num⟩
    · exact hk.trans_lt (by norm_num)
    · intro h1
      have := hk.symm.trans h1
      norm_num at this
  · rw [show (twoSec (Real.pi / 4) 0).Re0 (twoRotor.iters 1) = 10 * fullChord 6 from twoSec_Re0 _ _]
    exact two_diff _

/-- `k` of the first pass. -/
noncomputable def twoK (phi theta : ℝ) : ℝ :=
  2 / Real.pi * (phi - theta) * (Real.sqrt 2 / 6 * (Real.cos phi / Real.sin phi ^ 2))

theorem twoK_value : twoK (Real.pi / 4) 0 = 1 / 6 := by
  have h2 : Real.sqrt 2 * Real.sqrt 2 = 2 := Real.mul_self_sqrt (by norm_num)
  rw [twoK, two_cl, cot_quarter]
  linear_combination 1 / 12 * h2

theorem twoK_dphi : HasDerivAt (fun p => twoK p 0) (2 / (3 * Real.pi) - 1 / 2) (Real.pi / 4) := by
  have hs := reOk.sin.ne'
  have h2 : Real.sqrt 2 ^ 2 = 2 := Real.sq_sqrt (by norm_num)
  have h2p : Real.sqrt 2 ≠ 0 := by positivity
  have hpi := Real.pi_ne_zero
  have h1 : HasDerivAt (fun p : ℝ => 2 / Real.pi * (p - 0)) (2 / Real.pi * 1) (Real.pi / 4) :=
    ((hasDerivAt_id (Real.pi / 4)).sub_const 0).const_mul _
  have h3 := ((Real.hasDerivAt_cos (Real.pi / 4)).div ((Real.hasDerivAt_sin (Real.pi / 4)).pow 2) (pow_ne_zero 2 hs)).const_mul
    (Real.sqrt 2 / 6)
  refine (h1.mul h3).congr_deriv ?_
  simp only [Pi.div_apply, Pi.pow_apply, two_cl]
  rw [Real.sin_pi_div_four, Real.cos_pi_div_four]
  generalize Real.sqrt 2 = q at *
  field_simp
  ring

theorem twoK_dtheta : HasDerivAt (fun t => twoK (Real.pi / 4) t) (-(2 / (3 * Real.pi))) 0 := by
  have h1 : HasDerivAt (fun t : ℝ => 2 / Real.pi * (Real.pi / 4 - t)) (2 / Real.pi * -1) 0 :=
    ((hasDerivAt_id (0 : ℝ)).const_sub (Real.pi / 4)).const_mul _
  refine (h1.mul_const (Real.sqrt 2 / 6 * (Real.cos (Real.pi / 4) / Real.sin (Real.pi / 4) ^ 2))).congr_deriv ?_
  have h2 : Real.sqrt 2 * Real.sqrt 2 = 2 := Real.mul_self_sqrt (by norm_num)
  rw [cot_quarter, show Real.sqrt 2 / 6 * Real.sqrt 2 = 1 / 3 by linear_combination 1 / 6 * h2]
  field_simp

theorem two_first {phi theta : ℝ} (hp : 0 < phi) (hs : Real.sin phi ≠ 0) (h0 : 0 < twoK phi theta) (h1 : twoK phi theta ≤ 2 / 3) :
    (twoSec phi theta).residual (twoRotor.iters 1) twoAirfoil = Real.sin phi * (1 + twoK phi theta) - 4 / 3 * Real.cos phi ∧
    ((twoSec phi theta).loads (twoRotor.iters 1) twoAirfoil).a = twoK phi theta / (1 + twoK phi theta) ∧
    ((twoSec phi theta).loads (twoRotor.iters 1) twoAirfoil).ap = 0 := by
  obtain ⟨a1, a2, a3⟩ := two_out (cl := 2 / Real.pi * (phi - theta)) hp hs h0 h1
  refine ⟨?_, ?_, ?_⟩
  · rw [SecIn.residual_eq (twoRotor.iters 1) rfl, twoSec_ind]
    exact a3
  · simp only [SecIn.loads, secValues, SecIn.runBEM_eq (twoRotor.iters 1) rfl, if_true, twoSec_ind]
    exact a1
  · simp only [SecIn.loads, secValues, SecIn.runBEM_eq (twoRotor.iters 1) rfl, if_true, twoSec_ind]
    exact a2

/-- Along a differentiable curve of inflow angle and twist. -/
theorem two_chain {P T : ℝ → ℝ} {p q k' : ℝ} {t : ℝ} (hP : HasDerivAt P p t) (hT : HasDerivAt T q t) (hPt : P t = Real.pi / 4)
    (hTt : T t = 0) (hk : HasDerivAt (fun s => twoK (P s) (T s)) k' t) :
    let D := residualDerivatives ((twoSec (Real.pi / 4) 0).rotor twoRotor) 0 (Real.pi / 4) ((twoSec (Real.pi / 4) 0).sec twoAirfoil)
    p * (D 0).fzerod + q * (D 2).fzerod = Real.sqrt 2 / 2 * (k' + 5 / 2 * p) ∧
    p * (D 0).ad + q * (D 2).ad = 36 / 49 * k' ∧ p * (D 0).apd + q * (D 2).apd = 0 := by
  intro D
  have hX : SecIn.HasDeriv (fun s => twoSec (P s) (T s)) ⟨p, 0, q, 0, 0, 0, 0, 0, 0⟩ t :=
    ⟨hP, hasDerivAt_const _ _, hT, hasDerivAt_const _ _, hasDerivAt_const _ _,
      hasDerivAt_const _ _, hasDerivAt_const _ _, hasDerivAt_const _ _, hasDerivAt_const _ _⟩
  have hkv : twoK (P t) (T t) = 1 / 6 := by rw [hPt, hTt, twoK_value]
  obtain ⟨h1, h2, h3⟩ := residualDerivatives_correct (twoRotor.iters 1) rfl twoAirfoil _ _ t hX
    (by rw [hPt, hTt]; exact two_regular)
  have ev : ∀ᶠ s in 𝓝 t, 0 < P s ∧ Real.sin (P s) ≠ 0 ∧ 0 < twoK (P s) (T s) ∧ twoK (P s) (T s) ≤ 2 / 3 := by
    have c1 := hP.continuousAt.eventually (lt_mem_nhds (a := 0) (by rw [hPt]; exact reOk.pos))
    have c2 := (hP.sin).continuousAt.eventually_ne (y := 0) (by rw [hPt]; exact reOk.sin.ne')
    have c3 := hk.continuousAt.eventually (lt_mem_nhds (a := 0) (by beta_reduce; rw [hkv]; norm_num))
    have c4 := hk.continuousAt.eventually (eventually_lt_nhds (b := 2 / 3) (by beta_reduce; rw [hkv]; norm_num))
    filter_upwards [c1, c2, c3, c4] with s a b c d
    exact ⟨a, b, c, d.le⟩
  have u1 := h1.unique (((hP.sin.mul (hk.const_add 1)).sub (hP.cos.const_mul (4 / 3))).congr_of_eventuallyEq
    (ev.mono fun s h => (two_first h.1 h.2.1 h.2.2.1 h.2.2.2).1))
  have u2 := h2.unique ((hk.div (hk.const_add 1) (by rw [hkv]; norm_num)).congr_of_eventuallyEq
    (ev.mono fun s h => (two_first h.1 h.2.1 h.2.2.1 h.2.2.2).2.1))
  have u3 := h3.unique ((hasDerivAt_const t (0 : ℝ)).congr_of_eventuallyEq
    (ev.mono fun s h => (two_first h.1 h.2.1 h.2.2.1 h.2.2.2).2.2))
  have hD : ∀ j, residualDerivatives ((twoSec (P t) (T t)).rotor (twoRotor.iters 1)) (twoSec (P t) (T t)).pitch
      (twoSec (P t) (T t)).phi ((twoSec (P t) (T t)).sec twoAirfoil) j = D j := by
    intro j
    rw [hPt, hTt]
    rfl
  simp only [Finset.sum_range_succ, Finset.sum_range_zero, SecIn.get, zero_mul, add_zero, zero_add, hD] at u1 u2 u3
  rw [hkv, hPt, Real.sin_pi_div_four, Real.cos_pi_div_four] at u1
  rw [hkv] at u2
  refine ⟨u1.trans (by ring), u2.trans (by ring), u3⟩

theorem two_relDv (d : RelIn ℝ) (h1 : d.ap = 0) (h2 : d.Vx = 0) (h3 : d.Vy = 0) :
    relSpeedDv (⟨Real.pi / 4, 1 / 4, 0, 8, 6, 0, fullChord 6, 0⟩ : RelIn ℝ) d = (Real.sqrt 72, -48 * d.a / Real.sqrt 72) := by
  have h72p : 0 < Real.sqrt 72 := by positivity
  simp only [relSpeedDv, num_real, h1, h2, h3]
  norm_num
  field_simp
  ring

theorem two_dNp (j : ℕ) (hj : j = 0 ∨ j = 2) (e : ℝ)
    (ha : (residualDerivatives ((twoSec (Real.pi / 4) 0).rotor twoRotor) 0 (Real.pi / 4)
      ((twoSec (Real.pi / 4) 0).sec twoAirfoil) j).ad = e)
    (hap : (residualDerivatives ((twoSec (Real.pi / 4) 0).rotor twoRotor) 0 (Real.pi / 4)
      ((twoSec (Real.pi / 4) 0).sec twoAirfoil) j).apd = 0) :
    ((twoSec (Real.pi / 4) 0).derivs twoRotor twoAirfoil).dNp j = ((twoSec (Real.pi / 4) 0).loads twoRotor twoAirfoil).Np
        * ((if j = 0 then -1 else 0) - 4 / 3 * e) := by
  obtain ⟨l1, l2, l3, l4, l5, l6, l7⟩ := two_loads (theta := 0) (by have := Real.pi_pos; rw [abs_zero]; positivity)
  have h72 : Real.sqrt 72 ^ 2 = 72 := Real.sq_sqrt (by norm_num)
  have h72p : 0 < Real.sqrt 72 := by positivity
  have h2p : 0 < Real.sqrt 2 := by positivity
  have hc := fullChord6_pos
  have hlt := two_W_lt
  have s1 : (twoSec (Real.pi / 4) 0).pitch = 0 := rfl
  have s2 : (twoSec (Real.pi / 4) 0).phi = Real.pi / 4 := rfl
  have s3 : ((twoSec (Real.pi / 4) 0).sec twoAirfoil).chord = fullChord 6 := rfl
  have s4 : ((twoSec (Real.pi / 4) 0).sec twoAirfoil).theta = 0 := rfl
  have s5 : ((twoSec (Real.pi / 4) 0).sec twoAirfoil).Vx = 8 := by simp [SecIn.sec, twoSec, fullSec]
  have s6 : ((twoSec (Real.pi / 4) 0).sec twoAirfoil).Vy = 6 := by simp [SecIn.sec, twoSec, fullSec]
  have s7 : ((twoSec (Real.pi / 4) 0).rotor twoRotor).rho = 1 := rfl
  have s8 : ((twoSec (Real.pi / 4) 0).rotor twoRotor).mu = 1 := rfl
  have s9 : ((twoSec (Real.pi / 4) 0).sec twoAirfoil).af = twoAirfoil := rfl
  have k3 : kron 3 j = (0 : ℝ) := by rcases hj with rfl | rfl <;> simp [kron]
  have k4 : kron 4 j = (0 : ℝ) := by rcases hj with rfl | rfl <;> simp [kron]
  have k1 : kron 1 j = (0 : ℝ) := by rcases hj with rfl | rfl <;> simp [kron]
  have hw := congrArg Prod.snd (two_relDv ⟨kron 0 j, e, 0, 0, 0, kron 8 j, 0, kron 2 j⟩ rfl rfl rfl)
  have hw0 : ∀ d, (relSpeedDv (⟨Real.pi / 4, 1 / 4, 0, 8, 6, 0, fullChord 6, 0⟩ : RelIn ℝ) d).1 = Real.sqrt 72 := by
    intro d
    rw [relSpeedDv_fst]
    exact two_W
  have hd : ∀ al, twoAirfoil.dclda al (1 * Real.sqrt 72 * fullChord 6 / 1) = 0 := by
    intro al
    simp only [twoAirfoil]
    rw [if_pos]
    have := mul_lt_mul_of_pos_right hlt hc
    linarith
  have g1 : ∀ al Re, twoAirfoil.dcldRe al Re = 0 := fun _ _ => rfl
  have g2 : ∀ al Re, twoAirfoil.dcdda al Re = 0 := fun _ _ => rfl
  have g3 : ∀ al Re, twoAirfoil.dcddRe al Re = 0 := fun _ _ => rfl
  simp only [SecIn.derivs, secDerivs, if_true, l1, l2, l3, l4, l5, s1, s2, s3, s4, s5, s6, s7, s8, s9, relativeWindDv, ha, hap, k1, k3, k4,
    hw0, hd, g1, g2, g3]
  rw [hw]
  congr 1
  have hq : (2 : ℝ) / Real.sqrt 72 * (-48 * e / Real.sqrt 72) = -(4 / 3 * e) := by
    have : (2 : ℝ) / Real.sqrt 72 * (-48 * e / Real.sqrt 72) = -96 * e / Real.sqrt 72 ^ 2 := by field_simp; ring
    rw [this, h72]
    ring
  have h21 : 1 / (Real.sqrt 2 / 2) * (Real.sqrt 2 / 2) = 1 := by field_simp
  rcases hj with rfl | rfl
  · simp only [kron, if_true, num_real, Real.sin_pi_div_four, Real.cos_pi_div_four]
    push_cast
    rw [hq]
    linear_combination -h21
  · simp only [kron, num_real, Real.sin_pi_div_four, Real.cos_pi_div_four, OfNat.ofNat_ne_zero, if_false,
      OfNat.zero_ne_ofNat]
    push_cast
    rw [hq]
    ring

theorem two_reported :
    let d := (twoSec (Real.pi / 4) 0).derivs twoRotor twoAirfoil
    d.dNp 2 - d.dNp 0 / d.dR 0 * d.dR 2 ≠ 0 := by
  intro d
  have hpi := Real.pi_pos
  have h2p : 0 < Real.sqrt 2 := by positivity
  obtain ⟨f0, a0, p0⟩ := two_chain (hasDerivAt_id (Real.pi / 4)) (hasDerivAt_const (Real.pi / 4) 0) rfl rfl twoK_dphi
  obtain ⟨f2, a2, p2⟩ := two_chain (hasDerivAt_const (0 : ℝ) (Real.pi / 4)) (hasDerivAt_id (0 : ℝ)) rfl rfl twoK_dtheta
  simp only [one_mul, zero_mul, add_zero, zero_add] at f0 a0 p0 f2 a2 p2
  obtain ⟨l1, l2, l3, l4, l5, l6, l7⟩ := two_loads (theta := 0) (by rw [abs_zero]; positivity)
  have hN : ((twoSec (Real.pi / 4) 0).loads twoRotor twoAirfoil).Np ≠ 0 := by
    rw [l7]; have := fullChord6_pos; positivity
  have h72 : Real.sqrt 72 ^ 2 = 72 := Real.sq_sqrt (by norm_num)
  have h72p : 0 < Real.sqrt 72 := by positivity
  generalize hu : 2 / (3 * Real.pi) = u at *
  have hu0 : 0 < u := by rw [← hu]; positivity
  have hR0 : d.dR 0 = Real.sqrt 2 / 2 * (2 + u) := by
    refine f0.trans ?_
    ring
  have hR2 : d.dR 2 = Real.sqrt 2 / 2 * -u := f2.trans (by ring)
  rw [show d.dNp 2 = _ from two_dNp 2 (Or.inr rfl) _ a2 p2, show d.dNp 0 = _ from two_dNp 0 (Or.inl rfl) _ a0 p0, hR0, hR2]
  generalize ((twoSec (Real.pi / 4) 0).loads twoRotor twoAirfoil).Np = N at *
  simp only [OfNat.ofNat_ne_zero, if_false, if_true]
  have hq : Real.sqrt 2 ≠ 0 := h2p.ne'
  have h2u : 2 + u ≠ 0 := by positivity
  have e : N * (0 - 4 / 3 * (36 / 49 * -u)) - N * (-1 - 4 / 3 * (36 / 49 * (u - 1 / 2))) / (Real.sqrt 2 / 2 * (2 + u))
      * (Real.sqrt 2 / 2 * -u) = N * u * (71 / 49) / (2 + u) := by
    field_simp
    ring
  rw [e]
  have : u ≠ 0 := hu0.ne'
  positivity

theorem twoCurve_deriv (t : ℝ) : Design.HasDeriv 3 twoCurve twoVel t := by
  constructor <;> first | exact hasDerivAt_const _ _ | exact fun j _ => hasDerivAt_const _ _ | skip
  intro j _
  by_cases h : j = 0
  · simp only [twoCurve, twoVel, h, if_true]
    exact hasDerivAt_id _
  · simp only [twoCurve, twoVel, h, if_false]
    exact hasDerivAt_const _ _

theorem twoCurve_sec (s phi : ℝ) : (twoCurve s).sec 3 0 phi = twoSec phi (s * (Real.pi / 180)) := by
  have h := fullCurve_sec 1 0 0 0 (by norm_num) phi
  have e : (twoCurve s).sec 3 0 phi = { ((fullCurve 1).cond 0 0).sec 3 0 phi with theta := s * (Real.pi / 180) } := rfl
  rw [e, h]
  simp [twoSec]

theorem twoCurve_other (s : ℝ) (i : ℕ) (h0 : i ≠ 0) :
    solveStation dictBq ((twoCurve s).rotor twoRotor) (deg2rad 0) ((fullCurve 1).Omega 0)
      (rotorWind ((twoCurve s).rotor twoRotor) ((fullCurve 1).Uinf 0) ((fullCurve 1).Omega 0) (deg2rad 0)) i
    = solveStation dictBq (((fullCurve 1).cond 0 0).rotor dictRotor) (deg2rad 0) ((fullCurve 1).Omega 0)
      (rotorWind (((fullCurve 1).cond 0 0).rotor dictRotor) ((fullCurve 1).Uinf 0) ((fullCurve 1).Omega 0) (deg2rad 0)) i := by
  have hind : ((((fullCurve 1).cond 0 0).rotor dictRotor).af i).ReIndependent := fun _ _ _ => by
    simp [Design.rotor, dictRotor, reAirfoil]
  have e1 := SameCore.solveStation (S := (twoCurve s).rotor twoRotor) (R := (((fullCurve 1).cond 0 0).rotor dictRotor).iters 2)
    ⟨rfl, rfl, rfl, rfl, rfl, rfl, rfl, rfl⟩ dictBq (deg2rad 0) ((fullCurve 1).Omega 0)
    (rotorWind (((fullCurve 1).cond 0 0).rotor dictRotor) ((fullCurve 1).Uinf 0) ((fullCurve 1).Omega 0) (deg2rad 0)) i rfl rfl
    (by simp [Design.rotor, twoRotor, Rotor.iters, dictRotor, h0]) rfl
    (fun _ => by simp [Design.rotor, twoCurve, Rotor.iters, RotorDesign.cond, fullCurve, h0])
  have e2 := solveStation_iters dictBq (((fullCurve 1).cond 0 0).rotor dictRotor) i hind two_ne_zero one_ne_zero (deg2rad 0)
    ((fullCurve 1).Omega 0)
    (rotorWind (((fullCurve 1).cond 0 0).rotor dictRotor) ((fullCurve 1).Uinf 0) ((fullCurve 1).Omega 0) (deg2rad 0))
  exact e1.trans e2

theorem twoCurve_first {s : ℝ} (hs : |s * (Real.pi / 180)| < Real.pi / 16) :
    ∃ st, solveStation dictBq ((twoCurve s).rotor twoRotor) (deg2rad 0) ((fullCurve 1).Omega 0)
      (rotorWind ((twoCurve s).rotor twoRotor) ((fullCurve 1).Uinf 0) ((fullCurve 1).Omega 0) (deg2rad 0)) 0 = .ok st ∧
      st.phi = Real.pi / 4 := by
  have hO' : ((fullCurve 1).Omega 0 == 0) = false := by
    have := (fullCurve_Omega one_pos 0).ne'
    simp [num_real, this]
  have hw : rotorWind ((twoCurve s).rotor twoRotor) ((fullCurve 1).Uinf 0) ((fullCurve 1).Omega 0) (deg2rad 0)
    = _ := Design.wind_eq (R := twoRotor) (D := twoCurve s)
  rw [hw]
  set W := (twoCurve s).wind.eval twoRotor.n (twoCurve s).r (twoCurve s).precurve (twoCurve s).presweep with hW
  have hphi : stationPhi dictBq ((twoCurve s).rotor twoRotor) (deg2rad 0) ((fullCurve 1).Omega 0) W 0
      = .ok (Real.pi / 4, false) := by
    simp only [stationPhi, hO', Bool.false_eq_true, if_false]
    rw [if_neg (by simp [Design.rotor, twoRotor])]
    rfl
  set x := twoSec (Real.pi / 4) (s * (Real.pi / 180)) with hxd
  have hx : stationSec ((twoCurve s).rotor twoRotor) W 0
      (stationTheta ((twoCurve s).rotor twoRotor) (deg2rad 0) (Real.pi / 4) 0) = x.sec twoAirfoil := by
    rw [hxd, ← twoCurve_sec]
    rfl
  obtain ⟨-, -, -, -, l5, l6, -⟩ := two_loads hs
  have hsec : secLoads ((twoCurve s).rotor twoRotor) (deg2rad 0) (Real.pi / 4) true (x.sec twoAirfoil)
      = .ok (x.loads twoRotor twoAirfoil, x.derivs twoRotor twoAirfoil) := by
    have hp : deg2rad (0 : ℝ) = x.pitch := by simp [num_real, hxd, twoSec, fullSec]
    rw [(Design.sameCore (R := twoRotor) (i := 0) (phi := Real.pi / 4)).secLoads, hp]
    have hrot : ((twoCurve s).sec twoRotor.n 0 (Real.pi / 4)).rotor twoRotor = x.rotor twoRotor := by
      rw [show twoRotor.n = 3 from rfl, twoCurve_sec]
    rw [hrot]
    unfold secLoads
    rw [if_pos (by simp [num_real, SecIn.sec, hxd, twoSec, fullSec])]
    rw [if_neg]
    · rfl
    · intro h
      have h2p : 0 < Real.sqrt 2 := by positivity
      have h72p : 0 < Real.sqrt 72 := by positivity
      have c : (x.sec twoAirfoil).chord = fullChord 6 := rfl
      have l5' : (secValues (x.rotor twoRotor) x.pitch (Real.pi / 4) true (x.sec twoAirfoil)).cn = _ := l5
      have l6' : (secValues (x.rotor twoRotor) x.pitch (Real.pi / 4) true (x.sec twoAirfoil)).W = _ := l6
      simp only [num_real, Bool.and_eq_true, Bool.or_eq_true, decide_eq_true_eq, l5', l6', c] at h
      rcases h.2 with (h | h) | h
      · linarith
      · linarith
      · exact fullChord6_pos.ne' h
  unfold solveStation
  simp only [hphi, hx, hO', Bool.not_false, hsec, real_isNaN, Bool.false_and, Bool.false_eq_true, if_false]
  exact ⟨_, rfl, rfl⟩

theorem twoCurve_call {s : ℝ} (hs : |s * (Real.pi / 180)| < Real.pi / 16) :
    ∃ L, (twoCurve s).call dictBq twoRotor = .ok L ∧ ∀ i < 3, ∃ st, L.stations[i]? = some st ∧ st.phi = Real.pi / 4 := by
  have hst : ∀ i < 3, ∃ st, solveStation dictBq ((twoCurve s).rotor twoRotor) (deg2rad 0) ((fullCurve 1).Omega 0)
      (rotorWind ((twoCurve s).rotor twoRotor) ((fullCurve 1).Uinf 0) ((fullCurve 1).Omega 0) (deg2rad 0)) i = .ok st ∧
      st.phi = Real.pi / 4 := by
    intro i hi
    by_cases h0 : i = 0
    · subst h0; exact twoCurve_first hs
    · rw [twoCurve_other s i h0]
      exact fullCurve_station one_pos 0 0 i hi
  obtain ⟨l, hl⟩ := solveStations_of_all (k := 3) fun i hi => (hst i hi).imp fun _ h => h.1
  obtain ⟨L, hL, -⟩ := distributedAeroLoads_of_stations (R := (twoCurve s).rotor twoRotor) (pitch := 0) (az := 0) hl
  have hcall : (twoCurve s).call dictBq twoRotor = .ok L := hL
  refine ⟨L, hcall, fun i hi => ?_⟩
  obtain ⟨-, l2⟩ := solveStations_ok (distributedAeroLoads_stations (Prod.ext rfl hcall))
  obtain ⟨st, e1, e2⟩ := l2 i hi
  obtain ⟨st', e3, e4⟩ := hst i hi
  obtain rfl : st = st' := Except.ok.inj (e2.symm.trans e3)
  exact ⟨st, e1, e4⟩

theorem twoCurve_small : ∀ᶠ s : ℝ in 𝓝 0, |s * (Real.pi / 180)| < Real.pi / 16 := by
  have hpi := Real.pi_pos
  have hc : ContinuousAt (fun s : ℝ => |s * (Real.pi / 180)|) 0 := by fun_prop
  exact hc.eventually (eventually_lt_nhds (by simp; positivity))

/-- **C109** (fails) Derivatives with two passes are neither refused nor right: a rotor with derivatives and `iterRe = 2` whose
loads are computed at inflow angles that solve the residual equation, where the normal load at the first station does not
change with its twist, while the dictionary reports another derivative. -/
theorem iterations_derivatives_false :
    ∃ (bq : RootFinder ℝ) (R : Rotor ℝ) (D : ℝ → Design) (L : ℝ → LoadsOut ℝ), R.derivatives = true ∧ R.iterRe = 2 ∧
      (∀ s, D s = { D 0 with theta := fun j => if j = 0 then s else 0 }) ∧
      (∀ᶠ s in 𝓝 0, (D s).call bq R = .ok (L s) ∧
        ∃ st, (L s).stations[0]? = some st ∧ ((D s).sec R.n 0 st.phi).residual R (R.af 0) = 0) ∧
      HasDerivAt (fun s => stationArr (L s).stations SecLoads.Np 0) 0 0 ∧ dictAt (L 0).dNp "dtheta" 0 0 ≠ 0 := by
  have hex : ∀ s, ∃ L, |s * (Real.pi / 180)| < Real.pi / 16 → ((twoCurve s).call dictBq twoRotor = .ok L ∧
      ∀ i < 3, ∃ st, L.stations[i]? = some st ∧ st.phi = Real.pi / 4) := by
    intro s
    by_cases h : |s * (Real.pi / 180)| < Real.pi / 16
    · obtain ⟨L, hL⟩ := twoCurve_call h
      exact ⟨L, fun _ => hL⟩
    · exact ⟨⟨[], [], []⟩, fun h' => absurd h' h⟩
  choose L hL using hex
  have hstat : ∀ s, |s * (Real.pi / 180)| < Real.pi / 16 → ∃ st, (L s).stations[0]? = some st ∧ st.phi = Real.pi / 4 ∧
      st.loads = (twoSec (Real.pi / 4) (s * (Real.pi / 180))).loads twoRotor twoAirfoil ∧
      st.dNp = fun j => ((twoSec (Real.pi / 4) (s * (Real.pi / 180))).derivs twoRotor twoAirfoil).dNp (j + 1)
        - ((twoSec (Real.pi / 4) (s * (Real.pi / 180))).derivs twoRotor twoAirfoil).dNp 0
          / ((twoSec (Real.pi / 4) (s * (Real.pi / 180))).derivs twoRotor twoAirfoil).dR 0
          * ((twoSec (Real.pi / 4) (s * (Real.pi / 180))).derivs twoRotor twoAirfoil).dR (j + 1) := by
    intro s hs
    obtain ⟨h1, h2⟩ := hL s hs
    obtain ⟨st, e1, e2⟩ := h2 0 (by norm_num)
    have hn : twoRotor.n = 3 := rfl
    have ha : twoRotor.af 0 = twoAirfoil := by simp [twoRotor]
    have hst := Design.station h1 rfl (fullCurve_Omega one_pos 0).ne' e1
      (by rw [hn, twoCurve_sec]; simp [twoSec, fullSec]) (by rw [hn, twoCurve_sec]; simp [twoSec, fullSec])
    rw [hn, e2, twoCurve_sec, ha] at hst
    exact ⟨st, e1, e2, hst.1, hst.2.1⟩
  refine ⟨dictBq, twoRotor, twoCurve, L, rfl, rfl, fun s => rfl, ?_, ?_, ?_⟩
  · refine twoCurve_small.mono fun s hs => ⟨(hL s hs).1, ?_⟩
    obtain ⟨st, e1, e2, -, -⟩ := hstat s hs
    refine ⟨st, e1, ?_⟩
    have hn : twoRotor.n = 3 := rfl
    have ha : twoRotor.af 0 = twoAirfoil := by simp [twoRotor]
    rw [hn, e2, twoCurve_sec, ha]
    exact two_residual hs
  · refine (hasDerivAt_const (0 : ℝ) (Real.sqrt 2 / 2 * 36 * fullChord 6)).congr_of_eventuallyEq ?_
    refine twoCurve_small.mono fun s hs => ?_
    obtain ⟨st, e1, -, e3, -⟩ := hstat s hs
    obtain ⟨-, -, -, -, -, -, l7⟩ := two_loads hs
    simp only [stationArr, e1, Option.map_some, Option.getD_some, e3, l7]
  · have h0 : |(0 : ℝ) * (Real.pi / 180)| < Real.pi / 16 := by
      have := Real.pi_pos
      rw [zero_mul, abs_zero]; positivity
    obtain ⟨st, e1, -, -, e4⟩ := hstat 0 h0
    have hc := (hL 0 h0).1
    have hd' : ((twoCurve 0).rotor twoRotor).derivatives = true := rfl
    have hdict : (L 0).dNp = loadDict 3 (packX (stationD (L 0).stations Station.dNp)
        (windDw ((twoCurve 0).rotor twoRotor) (twoCurve 0).Uinf (twoCurve 0).Omega (deg2rad (twoCurve 0).azimuth)))
        (packCurve (stationD (L 0).stations Station.dNp)
          (windDcurve ((twoCurve 0).rotor twoRotor) (twoCurve 0).Uinf (twoCurve 0).Omega (deg2rad (twoCurve 0).azimuth))) := by
      simp only [Design.call, distributedAeroLoads] at hc
      split at hc
      · simp at hc
      · simp only [hd', if_true, Except.ok.injEq] at hc
        rw [← hc]
        rfl
    have s1 : stationD (L 0).stations Station.dNp 0 1 = st.dNp 1 := by
      simp only [stationD, e1, Option.map_some, Option.getD_some]
    have key : dictAt (L 0).dNp "dtheta" 0 0 = st.dNp 1 * (Real.pi / 180) := by
      rw [hdict, ← s1]
      show (matDiag 3 _).get 0 0 = _
      simp [matDiag, packX, zidx, num_real]
    rw [key, e4]
    have := two_reported
    simp only [zero_mul]
    exact mul_ne_zero this (by have := Real.pi_pos; positivity)

theorem full_ind (D : Design) (k : ℕ) : ∀ i < (D.rotor (dictRotor.iters k)).n, ((D.rotor (dictRotor.iters k)).af i).ReIndependent :=
  fun i _ _ _ _ => by simp [Design.rotor, Rotor.iters, dictRotor, reAirfoil]

theorem full_call_iters (D : Design) (k : ℕ) (hk : k ≠ 0) : D.call dictBq (dictRotor.iters k) = D.call dictBq dictRotor := by
  have h := congrArg Prod.snd (loads_iters dictBq (D.rotor dictRotor) (full_ind D 1) hk one_ne_zero D.Uinf D.Omega D.pitch D.azimuth)
  exact h

/-- The hypotheses of `loads_iterations`, `evaluate_iterations` and `rotor_dictionary_iterations` are met by the rotor of
`fullCurve` with three passes: the torque of the second condition. -/
example : ∃ o : ℝ → EvalOut ℝ, (∀ᶠ s in 𝓝 (1 : ℝ), (fullCurve s).call dictBq { dictRotor with iterRe := 3 } 2 true = .ok (o s)) ∧
    HasDerivAt (fun s => outputAt (o s) (fun x => x.acc.Q) 1) (rotorApply 3 2 (outputDict 3 (o 1) fun x => x.acc.Q) fullVel 1) 1 := by
  have hex : ∀ s, ∃ o, 0 < s → (fullCurve s).call dictBq (dictRotor.iters 3) 2 true = .ok o := fun s => by
    by_cases hs : 0 < s
    · obtain ⟨o, ho⟩ := fullCurve_call hs
      refine ⟨o, fun _ => (evaluate_iterations dictBq ((fullCurve s).rotor dictRotor) (fun i _ _ _ _ => ?_) 3 (by norm_num) le_rfl
        _ _).trans ho⟩
      simp [RotorDesign.rotor, dictRotor, reAirfoil]
    · exact ⟨⟨[], fun _ => 0⟩, fun h => absurd h hs⟩
  choose o ho using hex
  have hpos : ∀ᶠ s in 𝓝 (1 : ℝ), 0 < s := lt_mem_nhds one_pos
  refine ⟨o, hpos.mono ho, ?_⟩
  have hind : ∀ i, (dictRotor.af i).ReIndependent := fun i _ _ _ => by simp [dictRotor, reAirfoil]
  refine rotor_dictionary_iterations dictBq (dictRotor.iters 3) (by norm_num [Rotor.iters, dictRotor, reRotor, demoRotor]) rfl
    (by norm_num [Rotor.iters]) rfl 2 true fullCurve fullVel 1
    (fullCurve_deriv 2 1) o (hpos.mono ho) 1 (by norm_num) (fun i _ => hind i) (fun _ _ _ => Real.pi / 4)
    (fun _ _ _ _ => continuousAt_const)
    (fun k _ i hi => hpos.mono fun s hs L hL => fullCurve_phi hs 1 _ L (by rw [← full_call_iters _ 3 (by norm_num)]; exact hL) i hi)
    (fun k _ i hi => hpos.mono fun s hs => ?_) (fun k hk i hi => ?_) ?_ (Or.inr fun _ _ => rfl) _ (by simp)
  · rw [show (dictRotor.iters 3).n = 3 from rfl, fullCurve_sec s 1 _ i hi]
    exact (residual_iters (hind i) dictRotor 3 1 _).trans (fullCurve_ok hs hi).root
  · obtain rfl : k = 0 := by have : dictRotor.nSector = 1 := rfl; simp only [Rotor.iters, this] at hk; omega
    exact dictRegular_iters dictRotor 1 3 _ i (hind i) _ (fullCurve_dictRegular 1 i hi)
  · exact fullCurve_regular

/-- Two numbers of passes, by `loads_iterations`. -/
example : ∃ L, ((fullCurve 1).cond 0 0).call dictBq { dictRotor with iterRe := 3 } = .ok L := by
  obtain ⟨L, hL⟩ := fullCurve_loads (s := 1) one_pos 0 0
  exact ⟨L, (full_call_iters _ 3 (by norm_num)).trans hL⟩

/-- The hypotheses of `iterations_residual_partial` are met by the first station of this rotor. -/
example : SecRegular twoRotor twoAirfoil (twoSec (Real.pi / 4) 0) :=
  ⟨two_regular.chord, two_regular.ind, two_regular.airfoil⟩

end Verif
