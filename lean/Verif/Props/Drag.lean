import Verif.Props.Feather
import Verif.Props.Integration

/-! # C117: with `usecd=False` drag acts on the loads only

The residual does not see the drag then, so the solution for the inflow does not change with it, whatever the root finder does. -/

open Real

namespace Verif

/-! ## Specification -/

/-- Two airfoils with the same lift. -/
def SameLift (af af' : AirfoilI ℝ) : Prop := ∀ alpha Re, (af'.evaluate alpha Re).1 = (af.evaluate alpha Re).1

/-- The rotor with other airfoils. -/
def Rotor.withAirfoils {α : Type} (R : Rotor α) (af' : ℕ → AirfoilI α) : Rotor α := { R with af := af' }

/-! ## The section -/

/-- Two results of `__runBEM` that agree but for the drag, which both took at the same state. -/
def SameButDrag (af af' : AirfoilI ℝ) (alpha : ℝ) (o o' : BemOut ℝ) : Prop :=
  o'.fzero = o.fzero ∧ o'.a = o.a ∧ o'.ap = o.ap ∧ o'.cl = o.cl ∧
    ∃ Re, o.cd = (af.evaluate alpha Re).2 ∧ o'.cd = (af'.evaluate alpha Re).2

section
variable {R : Rotor ℝ} {af' : ℕ → AirfoilI ℝ} {pitch phi : ℝ} {x : Sec ℝ} {f' : AirfoilI ℝ}

theorem bemPass_drag (hcd : R.opts.useCd = false) (hl : SameLift x.af f') (a ap : ℝ) :
    SameButDrag x.af f' (phi - (x.theta + pitch)) (bemPass R pitch phi x a ap) (bemPass (R.withAirfoils af') pitch phi { x with af := f' } a ap) := by
  have hi := fun cl cd cd' => (options_effect x.r x.chord R.Rhub R.Rtip phi cl cd R.B x.Vx x.Vy R.opts).2.1 hcd cd'
  simp only [SameButDrag, bemPass, Rotor.withAirfoils, hl _ _]
  refine ⟨by rw [hi], by rw [hi], by rw [hi], trivial, _, rfl, rfl⟩

theorem bemPasses_drag (hcd : R.opts.useCd = false) (hl : SameLift x.af f') : ∀ (k : ℕ) (o o' : BemOut ℝ),
    SameButDrag x.af f' (phi - (x.theta + pitch)) o o' → SameButDrag x.af f' (phi - (x.theta + pitch)) (bemPasses R pitch phi x k o)
      (bemPasses (R.withAirfoils af') pitch phi { x with af := f' } k o')
  | 0, _, _, h => h
  | k + 1, o, o', h => by
    obtain ⟨-, ha, hap, -⟩ := h
    simp only [bemPasses]
    rw [ha, hap]
    exact bemPasses_drag hcd hl k _ _ (bemPass_drag hcd hl _ _)

theorem runBEM_drag (hcd : R.opts.useCd = false) (hl : SameLift x.af f') :
    SameButDrag x.af f' (phi - (x.theta + pitch)) (runBEM R pitch phi x) (runBEM (R.withAirfoils af') pitch phi { x with af := f' }) :=
  bemPasses_drag hcd hl _ _ _ (bemPass_drag hcd hl _ _)

end

section
variable {R : Rotor ℝ} {af' : ℕ → AirfoilI ℝ} {pitch Omega : ℝ} {V : ℕ → ℝ × ℝ} {i : ℕ}

theorem stationErrf_drag (hcd : R.opts.useCd = false) (hl : SameLift (R.af i) (af' i)) :
    stationErrf (R.withAirfoils af') pitch V i = stationErrf R pitch V i := by
  unfold stationErrf
  have e : (R.withAirfoils af').inv = R.inv := rfl
  rw [e]
  cases R.inv with
  | some d => rfl
  | none =>
    funext phi
    exact (runBEM_drag (af' := af') (x := stationSec R V i (R.theta i)) hcd hl).1

theorem stationPhi_drag (bq : RootFinder ℝ) (hcd : R.opts.useCd = false) (hl : SameLift (R.af i) (af' i)) :
    stationPhi bq (R.withAirfoils af') pitch Omega V i = stationPhi bq R pitch Omega V i := by
  unfold stationPhi
  rw [stationErrf_drag hcd hl]
  rfl

end

/-! ## C117 -/

section
variable {R : Rotor ℝ} {af' : ℕ → AirfoilI ℝ} {Uinf Omega pitch az : ℝ} {i : ℕ}

/-- **C117** A station of two rotors with `usecd=False` whose airfoils differ in the drag only, for any root finder: inflow angle,
warning, induction factors, angle of attack, lift, relative speed and Reynolds number are the same, and the loads differ by the
difference of the drag, resolved at the inflow angle. The two drag coefficients are those of the two airfoils at one state. -/
theorem drag_station (bq : RootFinder ℝ) (hcd : R.opts.useCd = false) (hl : SameLift (R.af i) (af' i)) (R1 R2 : Rotor ℝ) (L L' : LoadsOut ℝ)
    (h : distributedAeroLoads bq R Uinf Omega pitch az = (R1, .ok L))
    (h' : distributedAeroLoads bq (R.withAirfoils af') Uinf Omega pitch az = (R2, .ok L')) (s s' : Station ℝ) (hs : L.stations[i]? = some s)
    (hs' : L'.stations[i]? = some s') :
    s'.phi = s.phi ∧ s'.warned = s.warned ∧ s'.theta = s.theta ∧ s'.loads.a = s.loads.a ∧ s'.loads.ap = s.loads.ap ∧
    s'.loads.alpha = s.loads.alpha ∧ s'.loads.cl = s.loads.cl ∧ s'.loads.W = s.loads.W ∧ s'.loads.q = s.loads.q ∧ s'.loads.Re = s.loads.Re ∧
    s'.loads.Np = s.loads.Np + s.loads.q * R.chord i * (s'.loads.cd - s.loads.cd) * sin s.phi ∧
    s'.loads.Tp = s.loads.Tp - s.loads.q * R.chord i * (s'.loads.cd - s.loads.cd) * cos s.phi ∧
    ((rotorWind R Uinf Omega (az * (π / 180)) i).1 ≠ 0 → (rotorWind R Uinf Omega (az * (π / 180)) i).2 ≠ 0 →
      ∃ Re, s.loads.cd = ((R.af i).evaluate (s.loads.alpha * (π / 180)) Re).2 ∧ s'.loads.cd = ((af' i).evaluate (s.loads.alpha * (π / 180)) Re).2) := by
  obtain ⟨d, a1, a2, a3, -⟩ := solveStation_real (loads_station h hs).2
  obtain ⟨d', b1, b2, b3, -⟩ := solveStation_real (loads_station h' hs').2
  have hV : rotorWind (R.withAirfoils af') Uinf Omega (deg2rad az) = rotorWind R Uinf Omega (deg2rad az) := rfl
  rw [hV] at b1 b3
  rw [stationPhi_drag bq hcd hl, a1] at b1
  simp only [Except.ok.injEq, Prod.mk.injEq] at b1
  have hth : s'.theta = s.theta := by rw [b2, a2, ← b1.1]; rfl
  rw [hth, ← b1.1] at b3
  obtain ⟨F1, F2, F3, -⟩ := distributedAeroLoads_forces bq R R1 _ _ _ _ L h i s hs
  obtain ⟨G1, G2, G3, -⟩ := distributedAeroLoads_forces bq _ R2 _ _ _ _ L' h' i s' hs'
  have hch : (R.withAirfoils af').chord i = R.chord i := rfl
  have hrho : (R.withAirfoils af').rho = R.rho := rfl
  rw [hch, ← b1.1] at G2 G3
  rw [hrho] at G1
  have key : s'.loads.a = s.loads.a ∧ s'.loads.ap = s.loads.ap ∧ s'.loads.alpha = s.loads.alpha ∧ s'.loads.cl = s.loads.cl ∧
      s'.loads.W = s.loads.W ∧ s'.loads.Re = s.loads.Re ∧ ((rotorWind R Uinf Omega (az * (π / 180)) i).1 ≠ 0 →
      (rotorWind R Uinf Omega (az * (π / 180)) i).2 ≠ 0 →
      ∃ Re, s.loads.cd = ((R.af i).evaluate (s.loads.alpha * (π / 180)) Re).2 ∧ s'.loads.cd = ((af' i).evaluate (s.loads.alpha * (π / 180)) Re).2) := by
    obtain ⟨-, ha, hap, hcl, Re, hc, hc'⟩ := runBEM_drag (R := R) (af' := af') (pitch := deg2rad pitch) (phi := s.phi)
      (x := stationSec R (rotorWind R Uinf Omega (deg2rad az)) i s.theta) hcd hl
    have ex : stationSec (R.withAirfoils af') (rotorWind R Uinf Omega (deg2rad az)) i s.theta
      = { stationSec R (rotorWind R Uinf Omega (deg2rad az)) i s.theta with af := af' i } := rfl
    rw [ex] at b3
    rcases secLoads_ok a3 with ⟨v1, v2, e, -⟩ | ⟨v0, e⟩ <;> rcases secLoads_ok b3 with ⟨w1, w2, e', -⟩ | ⟨w0, e'⟩
    · have halpha : s.loads.alpha * (π / 180) = s.phi - (s.theta + deg2rad pitch) := by
        rw [e]
        have hpi := pi_ne_zero
        simp only [secValues, stationSec, relativeWind, num_real]
        field_simp
      rw [halpha]
      rw [e, e']
      simp only [secValues, ha, hap, hcl, hrho]
      have hmu : (R.withAirfoils af').mu = R.mu := rfl
      simp only [hmu]
      refine ⟨trivial, trivial, trivial, ?_, trivial, trivial, fun _ _ => ?_⟩
      · cases hr : (!(Omega == 0))
        · simp only [Bool.false_eq_true, if_false]
          exact hl _ _
        · rfl
      · cases hr : (!(Omega == 0))
        · simp only [Bool.false_eq_true, if_false]
          exact ⟨_, rfl, rfl⟩
        · exact ⟨Re, hc, hc'⟩
    · exact absurd w0 (not_or.mpr ⟨v1, v2⟩)
    · exact absurd v0 (not_or.mpr ⟨w1, w2⟩)
    · rw [e, e']
      refine ⟨rfl, rfl, rfl, rfl, rfl, rfl, fun n1 n2 => ?_⟩
      rw [real_deg2rad] at v0
      exact absurd v0 (not_or.mpr ⟨n1, n2⟩)
  obtain ⟨k1, k2, k3, k4, k5, k6, k7⟩ := key
  have hq : s'.loads.q = s.loads.q := by rw [G1, F1, k5]
  refine ⟨b1.1.symm, b1.2.symm, hth, k1, k2, k3, k4, k5, hq, k6, ?_, ?_, k7⟩
  · rw [G2, F2, hq, k4]; ring
  · rw [G3, F3, hq, k4]; ring

theorem solveStation_drag (bq : RootFinder ℝ) (hcd : R.opts.useCd = false) (hd : R.derivatives = false) (hl : SameLift (R.af i) (af' i)) (p O : ℝ)
    (V : ℕ → ℝ × ℝ) (e : PyErr) : solveStation bq (R.withAirfoils af') p O V i = .error e ↔ solveStation bq R p O V i = .error e := by
  have key : ∀ T : Rotor ℝ, T.derivatives = false → (solveStation bq T p O V i = .error e ↔ stationPhi bq T p O V i = .error e) := by
    intro T hT
    unfold solveStation
    cases hp : stationPhi bq T p O V i with
    | error e' => simp
    | ok q =>
      obtain ⟨phi, w⟩ := q
      simp only
      have : ∃ l, secLoads T p phi (!(O == 0)) (stationSec T V i (stationTheta T p phi i)) = .ok l := by
        unfold secLoads
        simp only [hT, Bool.false_and, Bool.false_eq_true, if_false]
        split_ifs <;> exact ⟨_, rfl⟩
      obtain ⟨⟨l, d⟩, hl⟩ := this
      rw [hl]
      simp [real_isNaN]
  rw [key R hd, key (R.withAirfoils af') hd, stationPhi_drag bq hcd hl]

theorem solveStations_drag (bq : RootFinder ℝ) (hcd : R.opts.useCd = false) (hd : R.derivatives = false) (p O : ℝ) (V : ℕ → ℝ × ℝ) :
    ∀ k, (∀ i < k, SameLift (R.af i) (af' i)) → ∀ e, (solveStations bq (R.withAirfoils af') p O V k = .error e ↔ solveStations bq R p O V k = .error e)
  | 0, _, e => by simp [solveStations]
  | k + 1, hl, e => by
    have ih := solveStations_drag bq hcd hd p O V k fun i hi => hl i (by omega)
    have st := solveStation_drag bq hcd hd (hl k (by omega)) p O V
    simp only [solveStations, bind, Except.bind, pure, Except.pure]
    cases h1 : solveStations bq R p O V k with
    | error e1 => rw [(ih e1).mpr h1]
    | ok l =>
      cases h1' : solveStations bq (R.withAirfoils af') p O V k with
      | error e1 => rw [(ih e1).mp h1'] at h1; cases h1
      | ok l' =>
        simp only
        cases h2 : solveStation bq R p O V k with
        | error e2 => rw [(st e2).mpr h2]
        | ok s =>
          cases h2' : solveStation bq (R.withAirfoils af') p O V k with
          | error e2 => rw [(st e2).mp h2'] at h2; cases h2
          | ok s' => simp

/-- **C117** Without derivatives the two calls fail together, with the same exception. -/
theorem drag_outcome (bq : RootFinder ℝ) (hcd : R.opts.useCd = false) (hd : R.derivatives = false) (hl : ∀ i < R.n, SameLift (R.af i) (af' i))
    (e : PyErr) : (distributedAeroLoads bq (R.withAirfoils af') Uinf Omega pitch az).2 = .error e ↔
      (distributedAeroLoads bq R Uinf Omega pitch az).2 = .error e := by
  have key : ∀ T : Rotor ℝ, ((distributedAeroLoads bq T Uinf Omega pitch az).2 = .error e ↔
      solveStations bq T (deg2rad pitch) Omega (rotorWind T Uinf Omega (deg2rad az)) T.n = .error e) := by
    refine fun T => ⟨distributedAeroLoads_error, fun h => ?_⟩
    unfold distributedAeroLoads
    simp only [h]
  rw [key, key]
  exact solveStations_drag bq hcd hd _ _ _ R.n hl e

end

/-! ## The rotor -/

theorem trapz_mono {m : ℕ} {f g s : ℕ → ℝ} (hfg : ∀ i < m + 1, f i ≤ g i) (hs : ∀ i < m, s i ≤ s (i + 1)) : trapz m f s ≤ trapz m g s := by
  simp only [trapz, num_real, real_sumTo]
  refine Finset.sum_le_sum fun i hi => ?_
  have hi := Finset.mem_range.mp hi
  refine mul_le_mul_of_nonneg_right ?_ (sub_nonneg.mpr (hs i hi))
  refine mul_le_mul_of_nonneg_left ?_ (by norm_num)
  exact add_le_add (hfg i (by omega)) (hfg (i + 1) (by omega))

/-- The axis of the blade from hub to tip. -/
noncomputable def Rotor.axis (R : Rotor ℝ) : CurvOut ℝ := fullCurv R.n R.r R.precurve R.presweep R.precone R.Rhub R.Rtip R.precurveTip R.presweepTip

theorem Rotor.axis_mono (R : Rotor ℝ) (i : ℕ) : R.axis.s i ≤ R.axis.s (i + 1) := by
  simp only [Rotor.axis, fullCurv, defineCurvature, pathLength, segLength, num_real]
  linarith [Real.sqrt_nonneg ((padded R.n 0 R.precurve R.precurveTip (i + 1) - padded R.n 0 R.precurve R.precurveTip i) ^ 2
    + (padded R.n 0 R.presweep R.presweepTip (i + 1) - padded R.n 0 R.presweep R.presweepTip i) ^ 2
    + (padded R.n R.Rhub R.r R.Rtip (i + 1) - padded R.n R.Rhub R.r R.Rtip i) ^ 2)]

/-- The blade points away from the axis of the rotor. -/
structure Outward (R : Rotor ℝ) : Prop where
  cone : ∀ i < R.n, 0 ≤ cos (R.axis.cone (i + 1))
  height : ∀ i < R.n, 0 ≤ R.axis.z_az (i + 1)

theorem padded_load_mono {n : ℕ} {f g w : ℕ → ℝ} (hfg : ∀ i < n, f i ≤ g i) (hw : ∀ i < n, 0 ≤ w (i + 1)) {i : ℕ} (hi : i < n + 2) :
    padded n 0 f 0 i * w i ≤ padded n 0 g 0 i * w i := by
  simp only [padded]
  split_ifs with h0 h1
  · exact le_rfl
  · exact le_rfl
  · have := mul_le_mul_of_nonneg_right (hfg (i - 1) (by omega)) (hw (i - 1) (by omega))
    rwa [show i - 1 + 1 = i by omega] at this

/-- **C117** Two rotors with `usecd=False` whose airfoils have the same lift, the second one more drag, blades that point outward, all
inflow angles between 0 and 90°: at the same condition the second rotor has at least the thrust and blade root moment of the first and
at most its torque and power. -/
theorem drag_rotor (bq : RootFinder ℝ) (R : Rotor ℝ) (af' : ℕ → AirfoilI ℝ) (cs : List (Cond ℝ)) (co : Bool) (o o' : EvalOut ℝ)
    (h : (evaluate bq R cs co).2 = .ok o) (h' : (evaluate bq (R.withAirfoils af') cs co).2 = .ok o') (m : ℕ) (c : Cond ℝ) (x x' : CondOut ℝ)
    (hc : cs[m]? = some c) (hx : o.conds[m]? = some x) (hx' : o'.conds[m]? = some x') (hcd : R.opts.useCd = false)
    (hl : ∀ i < R.n, SameLift (R.af i) (af' i)) (hmore : ∀ i < R.n, ∀ alpha Re, ((R.af i).evaluate alpha Re).2 ≤ ((af' i).evaluate alpha Re).2)
    (hrho : 0 ≤ R.rho) (hchord : ∀ i < R.n, 0 ≤ R.chord i) (G : Outward R)
    (hphi : ∀ k < R.nSector, ∀ L, (distributedAeroLoads bq R c.Uinf c.Omega c.pitch (k * (360 / R.nSector))).2 = .ok L →
      ∀ (i : ℕ) (s : Station ℝ), L.stations[i]? = some s → s.phi ∈ Set.Icc 0 (π / 2)) :
    x.acc.T.val ≤ x'.acc.T.val ∧ x.acc.Mb.val ≤ x'.acc.Mb.val ∧ x'.acc.Q.val ≤ x.acc.Q.val ∧ (0 ≤ c.Omega → x'.P.val ≤ x.P.val) := by
  obtain ⟨L, hL, hT, hQ, hM, -⟩ := sector_averages h hc hx
  obtain ⟨L', hL', hT', hQ', hM', -⟩ := sector_averages h' hc hx'
  have hP := (evaluate_entry h hc hx).2.1
  have hP' := (evaluate_entry h' hc hx').2.1
  have hpi := pi_pos
  have hBr : (0 : ℝ) ≤ R.B := by positivity
  have hns : (0 : ℝ) ≤ R.nSector := by positivity
  have key : ∀ k < R.nSector, ∀ i < R.n, stationArr (L k).stations SecLoads.Np i ≤ stationArr (L' k).stations SecLoads.Np i ∧
      stationArr (L' k).stations SecLoads.Tp i ≤ stationArr (L k).stations SecLoads.Tp i := by
    intro k hk i hi
    have e1 : distributedAeroLoads bq R c.Uinf c.Omega c.pitch (k * (360 / R.nSector)) = (_, .ok (L k)) := Prod.ext rfl (hL k hk)
    have e2 : distributedAeroLoads bq (R.withAirfoils af') c.Uinf c.Omega c.pitch (k * (360 / R.nSector)) = (_, .ok (L' k)) := Prod.ext rfl (hL' k hk)
    obtain ⟨s, hs⟩ : ∃ s, (L k).stations[i]? = some s :=
      ⟨_, List.getElem?_eq_getElem (by rw [(solveStations_ok (distributedAeroLoads_stations e1)).1]; exact hi)⟩
    obtain ⟨s', hs'⟩ : ∃ s, (L' k).stations[i]? = some s :=
      ⟨_, List.getElem?_eq_getElem (by rw [(solveStations_ok (distributedAeroLoads_stations e2)).1]; exact hi)⟩
    obtain ⟨-, -, -, -, -, -, -, -, -, -, n, t, d⟩ := drag_station bq hcd (hl i hi) _ _ _ _ e1 e2 s s' hs hs'
    have hp := hphi k hk _ (hL k hk) i s hs
    have hsin : 0 ≤ sin s.phi := sin_nonneg_of_nonneg_of_le_pi hp.1 (by linarith [hp.2])
    have hcos : 0 ≤ cos s.phi := cos_nonneg_of_mem_Icc ⟨by linarith [hp.1], hp.2⟩
    obtain ⟨q1, q2, q3, -⟩ := distributedAeroLoads_forces bq R _ _ _ _ _ _ e1 i s hs
    have hq : 0 ≤ s.loads.q := by rw [q1]; positivity
    have hdd : 0 ≤ s.loads.q * R.chord i * (s'.loads.cd - s.loads.cd) := by
      by_cases hV : (rotorWind R c.Uinf c.Omega (k * (360 / R.nSector) * (π / 180)) i).1 ≠ 0 ∧
          (rotorWind R c.Uinf c.Omega (k * (360 / R.nSector) * (π / 180)) i).2 ≠ 0
      · obtain ⟨Re, d1, d2⟩ := d hV.1 hV.2
        refine mul_nonneg (mul_nonneg hq (hchord i hi)) ?_
        rw [d1, d2]
        exact sub_nonneg.mpr (hmore i hi _ _)
      · obtain ⟨_, -, -, a3, -⟩ := solveStation_real (loads_station e1 hs).2
        rcases secLoads_ok a3 with ⟨v1, v2, -⟩ | ⟨-, e⟩
        · simp only [stationSec, real_deg2rad] at v1 v2
          exact absurd ⟨v1, v2⟩ hV
        · rw [show s.loads.q = 0 by rw [e]]
          simp
    simp only [stationArr, hs, hs', Option.map_some, Option.getD_some]
    constructor
    · rw [n]
      linarith [mul_nonneg hdd hsin]
    · rw [t]
      linarith [mul_nonneg hdd hcos]
  have mean : ∀ {f g : ℕ → ℝ}, (∀ k < R.nSector, f k ≤ g k) →
      (∑ k ∈ Finset.range R.nSector, f k) / R.nSector ≤ (∑ k ∈ Finset.range R.nSector, g k) / R.nSector := fun hfg =>
    div_le_div_of_nonneg_right (Finset.sum_le_sum fun k hk => hfg k (Finset.mem_range.mp hk)) hns
  have hmono := R.axis_mono
  have qle : x'.acc.Q.val ≤ x.acc.Q.val := by
    rw [hQ, hQ']
    refine mul_le_mul_of_nonneg_left (mean fun k hk => ?_) hBr
    exact trapz_mono (fun i hi => padded_load_mono (w := R.axis.z_az) (fun j hj => (key k hk j hj).2) G.height hi) fun i _ => hmono i
  refine ⟨?_, ?_, qle, fun hO => ?_⟩
  · rw [hT, hT']
    refine mul_le_mul_of_nonneg_left (mean fun k hk => ?_) hBr
    exact trapz_mono (fun i hi => padded_load_mono (w := fun i => cos (R.axis.cone i)) (fun j hj => (key k hk j hj).1) G.cone hi) fun i _ => hmono i
  · rw [hM, hM']
    refine mean fun k hk => ?_
    exact trapz_mono (fun i hi => padded_load_mono (w := R.axis.z_az) (fun j hj => (key k hk j hj).1) G.height hi) fun i _ => hmono i
  · rw [hP, hP']
    simp only [power, num_real]
    have := mul_le_mul_of_nonneg_right qle (show 0 ≤ c.Omega * (π / 30) by positivity)
    push_cast
    linarith

/-! ## An example -/

theorem StraightRotor.outward {R : Rotor ℝ} (G : StraightRotor R) : Outward R := by
  have hpi := pi_pos
  have hca := abs_lt.mp G.cone
  have hc := G.cos_pos
  have hinc : ∀ i, i + 1 < R.n + 2 → padded R.n R.Rhub R.r R.Rtip i < padded R.n R.Rhub R.r R.Rtip (i + 1) := G.padded_inc
  constructor
  · intro i hi
    have hcone : R.axis.cone (i + 1) = R.precone :=
      cone_of_straight_blade (R.n + 2) (by omega) _ _ _ _ ⟨by linarith, by linarith⟩ hinc
        (fun j _ => by simp [padded, G.curve, G.curveTip]) _ (by omega)
    rw [hcone]
    exact hc.le
  · intro i hi
    have h1 : ¬ (i + 1 = R.n + 1) := by omega
    simp only [Rotor.axis, fullCurv, defineCurvature, zAz, padded, G.curve, num_real, if_neg h1, Nat.add_eq_zero_iff, one_ne_zero, and_false, if_false]
    have := mul_pos (G.hub.trans (G.range hi).1) hc
    simp only [add_tsub_cancel_right, zero_mul, add_zero]
    exact this.le

/-- The rotor `featherRotor` with `usecd=False`, and drag `d`. -/
noncomputable def addedDragRotor (d : ℝ) : Rotor ℝ :=
  { featherRotor with opts := ⟨false, false, false, false⟩, af := (fun _ => ⟨fun alpha _ => (1 + sin alpha, d), fun _ _ => 0, fun _ _ => 0, fun _ _ => 0, fun _ _ => 0⟩) }

theorem addedDragRotor_straight (d : ℝ) : StraightRotor (addedDragRotor d) :=
  ⟨featherRotor_straight.n, featherRotor_straight.hub, featherRotor_straight.first, featherRotor_straight.inc, featherRotor_straight.last,
    featherRotor_straight.curve, featherRotor_straight.curveTip, featherRotor_straight.sweep, featherRotor_straight.sweepTip,
    featherRotor_straight.cone, featherRotor_straight.radius,
    ⟨featherRotor_straight.axial.1, featherRotor_straight.axial.2, featherRotor_straight.axial.3⟩⟩

theorem addedDragRotor_errf (pitch : ℝ) (V : ℕ → ℝ × ℝ) (i : ℕ) : stationErrf (addedDragRotor 0) pitch V i = stationErrf featherRotor pitch V i := by
  funext phi
  simp [stationErrf, addedDragRotor, featherRotor, annulusRotor, demoRotor, errFun, runBEM, bemPasses, bemPass, inductionFactors, normalCoef, stationSec]

theorem addedDragRotor_station {U : ℝ} (hU : 6 ≤ U) {pitch az : ℝ} {L : LoadsOut ℝ}
    (h : (distributedAeroLoads someRoot (addedDragRotor 0) U (30 / π) pitch az).2 = .ok L) {i : ℕ} {s : Station ℝ} (hs : L.stations[i]? = some s) :
    s.phi ∈ Set.Icc 0 (π / 2) := by
  have e : distributedAeroLoads someRoot (addedDragRotor 0) U (30 / π) pitch az = (_, .ok L) := Prod.ext rfl h
  obtain ⟨hi, st⟩ := loads_station e hs
  obtain ⟨_, a1, -⟩ := solveStation_real st
  obtain ⟨L0, h0, hlen, -⟩ := distributedAeroLoads_finds someRoot someRoot_onlyValueError featherRotor U (30 / π) pitch az
    (by simp [featherRotor, annulusRotor, demoRotor]) rfl (by simp [num_real])
  have e0 : distributedAeroLoads someRoot featherRotor U (30 / π) pitch az = (_, .ok L0) := Prod.ext rfl h0
  obtain ⟨s0, hs0⟩ : ∃ s, L0.stations[i]? = some s := ⟨_, List.getElem?_eq_getElem (by rw [hlen]; exact hi)⟩
  obtain ⟨_, b1, -⟩ := solveStation_real (loads_station e0 hs0).2
  obtain ⟨-, hp⟩ := featherRotor_station hU e0 hs0
  have eq : stationPhi someRoot (addedDragRotor 0) (deg2rad pitch) (30 / π) (rotorWind (addedDragRotor 0) U (30 / π) (deg2rad az)) i
      = stationPhi someRoot featherRotor (deg2rad pitch) (30 / π) (rotorWind featherRotor U (30 / π) (deg2rad az)) i := by
    unfold stationPhi
    rw [addedDragRotor_errf]
    rfl
  rw [eq, b1] at a1
  simp only [Except.ok.injEq, Prod.mk.injEq] at a1
  rw [← a1.1]
  exact ⟨hp.1.le, hp.2.le⟩

/-- The hypotheses of `drag_rotor` are met: drag raises the thrust of `addedDragRotor` and lowers its power. -/
example : ∃ o o' x x', (evaluate someRoot (addedDragRotor 0) [⟨6, 30 / π, 0⟩] false).2 = .ok o ∧
    (evaluate someRoot (addedDragRotor 1) [⟨6, 30 / π, 0⟩] false).2 = .ok o' ∧ o.conds = [x] ∧ o'.conds = [x'] ∧
    x.acc.T.val ≤ x'.acc.T.val ∧ x'.P.val ≤ x.P.val := by
  have hpi := pi_gt_three
  have hO : 30 / π ≠ 0 := by positivity
  have total : ∀ d, ∃ o x, (evaluate someRoot (addedDragRotor d) [⟨6, 30 / π, 0⟩] false).2 = .ok o ∧ o.conds = [x] := by
    intro d
    obtain ⟨o, x, h, -⟩ := evaluate_total someRoot_onlyValueError (addedDragRotor d) ⟨6, 30 / π, 0⟩ false
      (by simp [addedDragRotor, featherRotor, annulusRotor, demoRotor]) rfl hO (by simp [addedDragRotor, featherRotor, annulusRotor, demoRotor])
    obtain ⟨x, hx⟩ := List.length_eq_one_iff.mp (evaluate_length h)
    exact ⟨o, x, h, hx⟩
  obtain ⟨o, x, h, hx⟩ := total 0
  obtain ⟨o', x', h', hx'⟩ := total 1
  obtain ⟨t, -, -, p⟩ := drag_rotor someRoot (addedDragRotor 0) (addedDragRotor 1).af _ false o o' h h' 0 _ x x' rfl (by rw [hx]; rfl) (by rw [hx']; rfl) rfl
    (fun _ _ _ _ => rfl) (fun _ _ _ _ => by norm_num [addedDragRotor]) (by norm_num [addedDragRotor, featherRotor, annulusRotor, demoRotor])
    (fun i _ => by simp only [addedDragRotor, featherRotor, annulusRotor]; positivity) (addedDragRotor_straight 0).outward
    (fun k _ L hL i s hs => addedDragRotor_station le_rfl hL hs)
  exact ⟨o, o', x, x', h, h', hx, hx', t, p (by positivity)⟩

end Verif
