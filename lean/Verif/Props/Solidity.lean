import Verif.Props.Rotor
import Verif.Props.Twist
import Verif.Props.Integration

/-!
# C104: without tip and hub losses only the solidity counts
-/

namespace Verif

open Finset

/-- The same rotor with another number of blades and chords scaled so that number times chord stays the same; the viscosity is scaled like
the chords so that the Reynolds numbers stay the same. -/
noncomputable def Rotor.resplit (R : Rotor ℝ) (B' : ℕ) : Rotor ℝ :=
  { R with B := B', chord := fun i => (R.B : ℝ) / B' * R.chord i, mu := (R.B : ℝ) / B' * R.mu }

/-- Loads of a section of a narrower blade -/
def SecLoads.scale (k : ℝ) (l : SecLoads ℝ) : SecLoads ℝ := { l with Np := k * l.Np, Tp := k * l.Tp }

/-- The results for two stations differ in the loads per length only, by the factor `k`. -/
def StationScaled (k : ℝ) (s s' : Station ℝ) : Prop :=
  s'.phi = s.phi ∧ s'.warned = s.warned ∧ s'.theta = s.theta ∧ s'.loads = s.loads.scale k

section
variable {R : Rotor ℝ} {B' : ℕ} (hB : R.B ≠ 0) (hB' : B' ≠ 0) (htip : R.opts.tipLoss = false) (hhub : R.opts.hubLoss = false)
include hB hB' htip hhub

theorem induction_resplit (r c Rhub Rtip phi cl cd Vx Vy : ℝ) :
    inductionFactors r ((R.B : ℝ) / B' * c) Rhub Rtip phi cl cd B' Vx Vy R.opts =
      inductionFactors r c Rhub Rtip phi cl cd R.B Vx Vy R.opts := by
  have h1 : ((B' : ℕ) : ℝ) ≠ 0 := Nat.cast_ne_zero.mpr hB'
  have hs : solidity B' ((R.B : ℝ) / B' * c) r = solidity R.B c r := by
    simp only [solidity, num_real]
    congr 1
    field_simp
  have ht : ∀ B s, tipFactor R.opts.tipLoss B r Rtip s = (1 : ℝ) := fun B s => by rw [htip]; rfl
  have hh : ∀ B s, hubFactor R.opts.hubLoss B r Rhub s = (1 : ℝ) := fun B s => by rw [hhub]; rfl
  simp only [inductionFactors, hs, ht, hh]

omit htip hhub in
theorem wind_resplit (phi a ap Vx Vy pitch c theta : ℝ) :
    relativeWind phi a ap Vx Vy pitch ((R.B : ℝ) / B' * c) theta R.rho ((R.B : ℝ) / B' * R.mu) =
      relativeWind phi a ap Vx Vy pitch c theta R.rho R.mu := by
  have hk : (R.B : ℝ) / B' ≠ 0 := div_ne_zero (Nat.cast_ne_zero.mpr hB) (Nat.cast_ne_zero.mpr hB')
  simp only [relativeWind, WindOut.mk.injEq, true_and]
  rw [show R.rho * relSpeed phi a ap Vx Vy * ((R.B : ℝ) / B' * c) = (R.B : ℝ) / B' * (R.rho * relSpeed phi a ap Vx Vy * c) by ring]
  exact mul_div_mul_left _ _ hk

/-- The section with its chord scaled -/
theorem bemPass_resplit (pitch phi : ℝ) (x : Sec ℝ) (a ap : ℝ) :
    bemPass (R.resplit B') pitch phi { x with chord := (R.B : ℝ) / B' * x.chord } a ap = bemPass R pitch phi x a ap := by
  simp only [bemPass, Rotor.resplit, wind_resplit hB hB', induction_resplit hB hB' htip hhub]

theorem runBEM_resplit (pitch phi : ℝ) (x : Sec ℝ) :
    runBEM (R.resplit B') pitch phi { x with chord := (R.B : ℝ) / B' * x.chord } = runBEM R pitch phi x := by
  have hp : ∀ k o, bemPasses (R.resplit B') pitch phi { x with chord := (R.B : ℝ) / B' * x.chord } k o = bemPasses R pitch phi x k o := by
    intro k
    induction k with
    | zero => exact fun _ => rfl
    | succ k ih => intro o; simp only [bemPasses, bemPass_resplit hB hB' htip hhub, ih]
  simp only [runBEM, bemPass_resplit hB hB' htip hhub, hp]
  rfl

theorem secValues_resplit (pitch phi : ℝ) (rot : Bool) (x : Sec ℝ) :
    secValues (R.resplit B') pitch phi rot { x with chord := (R.B : ℝ) / B' * x.chord } =
      (secValues R pitch phi rot x).scale ((R.B : ℝ) / B') := by
  simp only [secValues, runBEM_resplit hB hB' htip hhub]
  simp only [Rotor.resplit, wind_resplit hB hB', SecLoads.scale, SecLoads.mk.injEq, true_and, and_true]
  constructor <;> ring

theorem solveStation_resplit (bq : RootFinder ℝ) (hd : R.derivatives = false) (pitch Omega : ℝ) (V : ℕ → ℝ × ℝ) (i : ℕ) {s : Station ℝ}
    (h : solveStation bq R pitch Omega V i = .ok s) :
    ∃ s', solveStation bq (R.resplit B') pitch Omega V i = .ok s' ∧ StationScaled ((R.B : ℝ) / B') s s' := by
  have hsec : ∀ th, stationSec (R.resplit B') V i th = { stationSec R V i th with chord := (R.B : ℝ) / B' * (stationSec R V i th).chord } :=
    fun _ => rfl
  have herr : stationErrf (R.resplit B') pitch V i = stationErrf R pitch V i := by
    have e1 : ∀ th, errFun (R.resplit B') pitch (stationSec (R.resplit B') V i th) = errFun R pitch (stationSec R V i th) := by
      intro th
      funext phi
      simp only [errFun, hsec, runBEM_resplit hB hB' htip hhub]
    have e2 : ∀ th cl cd, errFunInv (R.resplit B') (stationSec (R.resplit B') V i th) cl cd = errFunInv R (stationSec R V i th) cl cd := by
      intro th cl cd
      funext phi
      simp only [errFunInv, hsec]
      exact congrArg IndOut.fzero (induction_resplit hB hB' htip hhub _ _ _ _ _ _ _ _ _)
    simp only [stationErrf, e1, e2]
    rfl
  have hphi : stationPhi bq (R.resplit B') pitch Omega V i = stationPhi bq R pitch Omega V i := by
    simp only [stationPhi, herr]
    rfl
  have hth : stationTheta (R.resplit B') = stationTheta R := rfl
  simp only [solveStation, hphi, hth] at h ⊢
  cases hp : stationPhi bq R pitch Omega V i with
  | error e => rw [hp] at h; cases h
  | ok w =>
    obtain ⟨phi, warned⟩ := w
    rw [hp] at h
    simp only at h ⊢
    rw [hsec]
    generalize stationSec R V i (stationTheta R pitch phi i) = x at h ⊢
    have hd' : (R.resplit B').derivatives = false := hd
    simp only [secLoads, hd, hd', Bool.false_and, Bool.false_eq_true, if_false, secValues_resplit hB hB' htip hhub] at h ⊢
    have hn : ∀ y : ℝ, Num.isNaN y = false := fun y => by simp [num_real]
    by_cases hv : (!(x.Vx == 0) && !(x.Vy == 0)) = true
    · simp only [hv, if_true, hn, Bool.false_and, Bool.false_eq_true, if_false, Except.ok.injEq] at h ⊢
      refine ⟨_, rfl, ?_⟩
      subst h
      exact ⟨rfl, rfl, rfl, rfl⟩
    · simp only [hv, if_false, hn, Bool.false_and, Bool.false_eq_true, Except.ok.injEq] at h ⊢
      refine ⟨_, rfl, ?_⟩
      subst h
      refine ⟨rfl, rfl, rfl, ?_⟩
      simp [SecLoads.scale]

/-- **C104** Without tip and hub losses a rotor with `B'` in place of `B` blades, of `B/B'` times the chord (at the same Reynolds
numbers), has the same inflow angles, induction factors, angles of attack and coefficients at every station, and the loads per length
of one blade are `B/B'` times as large. -/
theorem loads_resplit (bq : RootFinder ℝ) (hd : R.derivatives = false) (Uinf Omega pitch az : ℝ) {L : LoadsOut ℝ}
    (h : (distributedAeroLoads bq R Uinf Omega pitch az).2 = .ok L) :
    ∃ L', (distributedAeroLoads bq (R.resplit B') Uinf Omega pitch az).2 = .ok L' ∧
      List.Forall₂ (StationScaled ((R.B : ℝ) / B')) L.stations L'.stations := by
  have hs := distributedAeroLoads_stations (Prod.ext rfl h)
  obtain ⟨hlen, hst⟩ := solveStations_ok hs
  have hw : rotorWind (R.resplit B') = rotorWind R := rfl
  have key : ∀ k, ∀ l, solveStations bq R (deg2rad pitch) Omega (rotorWind R Uinf Omega (deg2rad az)) k = .ok l →
      ∃ l', solveStations bq (R.resplit B') (deg2rad pitch) Omega (rotorWind R Uinf Omega (deg2rad az)) k = .ok l' ∧
        List.Forall₂ (StationScaled ((R.B : ℝ) / B')) l l' := by
    intro k
    induction k with
    | zero =>
      intro l hl
      cases hl
      exact ⟨[], rfl, .nil⟩
    | succ k ih =>
      intro l hl
      simp only [solveStations] at hl ⊢
      cases h1 : solveStations bq R (deg2rad pitch) Omega (rotorWind R Uinf Omega (deg2rad az)) k with
      | error e => rw [h1] at hl; cases hl
      | ok l1 =>
        rw [h1] at hl
        obtain ⟨l1', h1', f1⟩ := ih l1 h1
        cases h2 : solveStation bq R (deg2rad pitch) Omega (rotorWind R Uinf Omega (deg2rad az)) k with
        | error e => rw [h2] at hl; cases hl
        | ok s =>
          rw [h2] at hl
          cases hl
          obtain ⟨s', h2', f2⟩ := solveStation_resplit hB hB' htip hhub bq hd _ _ _ _ h2
          rw [h1', h2']
          exact ⟨_, rfl, List.rel_append f1 (.cons f2 .nil)⟩
  obtain ⟨l', hl', f⟩ := key _ _ hs
  obtain ⟨L', h1, h2⟩ := distributedAeroLoads_of_stations (R := R.resplit B') (by rw [hw]; exact hl')
  exact ⟨L', h1, by rw [h2]; exact f⟩

end

/-- Arrays of two results whose stations differ by the factor -/
theorem scaled_arr {k : ℝ} {l l' : List (Station ℝ)} (f : List.Forall₂ (StationScaled k) l l') {g : SecLoads ℝ → ℝ} {m : ℝ}
    (hg : ∀ x : SecLoads ℝ, g (x.scale k) = m * g x) (i : ℕ) : stationArr l' g i = m * stationArr l g i := by
  induction f generalizing i with
  | nil => simp [stationArr]
  | cons h _ ih =>
    cases i with
    | zero => simp only [stationArr, List.getElem?_cons_zero, Option.map_some, Option.getD_some, h.2.2.2, hg]
    | succ i => simpa [stationArr] using ih i

variable {R : Rotor ℝ} {B' : ℕ}

theorem bladeInt_resplit {k : ℝ} {L L' : LoadsOut ℝ} (f : List.Forall₂ (StationScaled k) L.stations L'.stations) :
    let I := bladeInt R L
    let I' := bladeInt (R.resplit B') L'
    I'.T = k * I.T ∧ I'.Y = k * I.Y ∧ I'.Z = k * I.Z ∧ I'.Q = k * I.Q ∧ I'.M = k * I.M := by
  have hN : stationArr L'.stations SecLoads.Np = fun i => k * stationArr L.stations SecLoads.Np i :=
    funext fun i => scaled_arr f (fun _ => rfl) i
  have hT : stationArr L'.stations SecLoads.Tp = fun i => k * stationArr L.stations SecLoads.Tp i :=
    funext fun i => scaled_arr f (fun _ => rfl) i
  have h := thrustTorque_linear R.n (stationArr L.stations SecLoads.Np) (stationArr L.stations SecLoads.Tp) (stationArr L.stations SecLoads.Np)
    (stationArr L.stations SecLoads.Tp) R.r R.precurve R.presweep R.precone R.Rhub R.Rtip R.precurveTip R.presweepTip k 0
  simp only [zero_mul, add_zero] at h
  rw [← hN, ← hT] at h
  exact h

/-- **C104** The rotor outputs: with losses off, a rotor of `B'` blades with `B/B'` times the chord can be evaluated whenever the
original can, and has the same thrust, side forces, torque, tilting and yawing moments and power; the moment at the root of one blade
is `B/B'` times as large. -/
theorem evaluate_resplit (hB : R.B ≠ 0) (hB' : B' ≠ 0) (htip : R.opts.tipLoss = false) (hhub : R.opts.hubLoss = false)
    (bq : RootFinder ℝ) (hd : R.derivatives = false) (cs : List (Cond ℝ)) (co : Bool) {o : EvalOut ℝ}
    (h : (evaluate bq R cs co).2 = .ok o) :
    ∃ o', (evaluate bq (R.resplit B') cs co).2 = .ok o' ∧ o'.conds.length = o.conds.length ∧
      ∀ (m : ℕ) (x x' : CondOut ℝ), o.conds[m]? = some x → o'.conds[m]? = some x' →
        x'.acc.T.val = x.acc.T.val ∧ x'.acc.Y.val = x.acc.Y.val ∧ x'.acc.Z.val = x.acc.Z.val ∧ x'.acc.Q.val = x.acc.Q.val ∧
        x'.acc.My.val = x.acc.My.val ∧ x'.acc.Mz.val = x.acc.Mz.val ∧ x'.P.val = x.P.val ∧
        x'.acc.Mb.val = R.B / B' * x.acc.Mb.val := by
  have hns : (R.resplit B').nSector = R.nSector := rfl
  have hex : ∃ o', (evaluate bq (R.resplit B') cs co).2 = .ok o' := by
    refine evaluate_conditions_ok _ _ _ _ ?_ fun c hc => ?_
    · rintro rfl
      simp [evaluate, condLoop] at h
    · obtain ⟨m, hm, rfl⟩ := List.getElem_of_mem hc
      obtain ⟨o1, h1, -⟩ := (List.forall₂_iff_get.mp (evaluate_conditions bq R cs co o h)).2 m hm (by rw [evaluate_length h]; exact hm)
      obtain ⟨a, h2, h3, -⟩ := (evaluate_single bq R _ co o1).mp h1
      have hn : R.nSector ≠ 0 := (condAcc_W h2).mp (by rw [h3]; rfl)
      obtain ⟨a', h4⟩ := (condAcc_ok_iff bq (R.resplit B') _).mpr fun k hk => by
        obtain ⟨L, hL⟩ := (condAcc_ok_iff bq R _).mp ⟨a, h2⟩ k hk
        obtain ⟨L', hL', -⟩ := loads_resplit hB hB' htip hhub bq hd _ _ _ _ hL
        exact ⟨L', hL'⟩
      obtain ⟨W, hW⟩ := Option.isSome_iff_exists.mp ((condAcc_W h4).mpr hn)
      exact ⟨⟨_, W⟩, (evaluate_single _ _ _ _ _).mpr ⟨a', h4, hW, rfl⟩⟩
  obtain ⟨o', ho'⟩ := hex
  refine ⟨o', ho', by rw [evaluate_length ho', evaluate_length h], fun m x x' hx hx' => ?_⟩
  have hm : m < cs.length := by
    rw [← evaluate_length h]
    exact (List.getElem?_eq_some_iff.mp hx).1
  have hc : cs[m]? = some cs[m] := List.getElem?_eq_getElem hm
  obtain ⟨L, hL, hT, hQ, hMb, hY, hZ, hMy, hMz, -⟩ := sector_averages h hc hx
  obtain ⟨L', hL', hT', hQ', hMb', hY', hZ', hMy', hMz', -⟩ := sector_averages ho' hc hx'
  have hP := (evaluate_entry h hc hx).2.1
  have hP' := (evaluate_entry ho' hc hx').2.1
  have key : ∀ k ∈ range R.nSector, (bladeInt (R.resplit B') (L' k)).T = R.B / B' * (bladeInt R (L k)).T ∧
      (bladeInt (R.resplit B') (L' k)).Y = R.B / B' * (bladeInt R (L k)).Y ∧
      (bladeInt (R.resplit B') (L' k)).Z = R.B / B' * (bladeInt R (L k)).Z ∧
      (bladeInt (R.resplit B') (L' k)).Q = R.B / B' * (bladeInt R (L k)).Q ∧
      (bladeInt (R.resplit B') (L' k)).M = R.B / B' * (bladeInt R (L k)).M := fun k hk => by
    obtain ⟨L2, h2, f⟩ := loads_resplit hB hB' htip hhub bq hd _ _ _ _ (hL k (mem_range.mp hk))
    have h3 : L2 = L' k := by
      have := h2.symm.trans (hL' k (mem_range.mp hk))
      exact Except.ok.inj this
    rw [h3] at f
    exact bladeInt_resplit (R := R) (B' := B') f
  have h1 : ((B' : ℕ) : ℝ) ≠ 0 := Nat.cast_ne_zero.mpr hB'
  have hb : ((R.resplit B').B : ℝ) = B' := rfl
  simp only [hns, hb] at hT' hQ' hMb' hY' hZ' hMy' hMz'
  have hmean : ∀ (g g' : ℕ → ℝ), (∀ k ∈ range R.nSector, g' k = R.B / B' * g k) →
      (∑ k ∈ range R.nSector, g' k) / R.nSector = R.B / B' * ((∑ k ∈ range R.nSector, g k) / R.nSector) := by
    intro g g' hg
    rw [sum_congr rfl hg, ← mul_sum, mul_div_assoc]
  have hall : ∀ (g g' : ℕ → ℝ), (∀ k ∈ range R.nSector, g' k = R.B / B' * g k) →
      (B' : ℝ) * ((∑ k ∈ range R.nSector, g' k) / R.nSector) = R.B * ((∑ k ∈ range R.nSector, g k) / R.nSector) := by
    intro g g' hg
    rw [hmean g g' hg]
    field_simp
  have eQ : x'.acc.Q.val = x.acc.Q.val := by rw [hQ, hQ']; exact hall _ _ fun k hk => (key k hk).2.2.2.1
  refine ⟨?_, ?_, ?_, eQ, ?_, ?_, ?_, ?_⟩
  · rw [hT, hT']; exact hall _ _ fun k hk => (key k hk).1
  · rw [hY, hY']; exact hall _ _ fun k hk => by rw [(key k hk).2.1, (key k hk).2.2.1]; ring
  · rw [hZ, hZ']; exact hall _ _ fun k hk => by rw [(key k hk).2.1, (key k hk).2.2.1]; ring
  · rw [hMy, hMy']; exact hall _ _ fun k hk => by rw [(key k hk).2.2.2.2]; ring
  · rw [hMz, hMz']; exact hall _ _ fun k hk => by rw [(key k hk).2.2.2.2]; ring
  · rw [hP, hP']; simp only [power, eQ]
  · rw [hMb, hMb']; exact hmean _ _ fun k hk => (key k hk).2.2.2.2

/-- **C104** The losses must be off: Prandtl's tip factor tells any two numbers of blades apart at every station inside the tip. -/
theorem tip_loss_blades {B B' : ℕ} (hne : B ≠ B') {r Rtip s : ℝ} (hr : 0 < r) (hs : 0 < s) (ht : r < Rtip) :
    tipFactor true B r Rtip s ≠ tipFactor true B' r Rtip s := by
  have hx : (Rtip - r) / (r * s) ≠ 0 := ne_of_gt (div_pos (by linarith) (by positivity))
  have hle : ∀ b : ℕ, Real.exp (-((b : ℝ) / 2 * (Rtip - r) / (r * s))) ∈ Set.Icc (-1 : ℝ) 1 := fun b =>
    ⟨by linarith [Real.exp_pos (-((b : ℝ) / 2 * (Rtip - r) / (r * s)))], Real.exp_le_one_iff.mpr (by
      have : 0 ≤ (b : ℝ) / 2 * (Rtip - r) / (r * s) := div_nonneg (mul_nonneg (by positivity) (by linarith)) (by positivity)
      linarith)⟩
  intro h
  simp only [tipFactor, if_true, num_real] at h
  have h2 := mul_left_cancel₀ (div_ne_zero (by norm_num) Real.pi_ne_zero) h
  have h3 := Real.exp_injective (Real.arccos_injOn (hle B) (hle B') h2)
  have h4 : (B : ℝ) * ((Rtip - r) / (r * s)) = B' * ((Rtip - r) / (r * s)) := by
    have := neg_injective h3
    linear_combination 2 * this
  exact hne (Nat.cast_injective (mul_right_cancel₀ hx h4))

/-- Non-vacuity: the plain rotor (three blades, no losses) in four sectors against two blades of one and a half times the chord: equal
thrust, and a blade root moment that is larger, not zero. -/
example : ∃ o o' x x', (evaluate plainBq (plainRotor.withSectors 4) [⟨10, 12, 0⟩] true).2 = .ok o ∧
    (evaluate plainBq ((plainRotor.withSectors 4).resplit 2) [⟨10, 12, 0⟩] true).2 = .ok o' ∧ o.conds = [x] ∧ o'.conds = [x'] ∧
    x'.acc.T.val = x.acc.T.val ∧ 0 < x.acc.Mb.val ∧ x.acc.Mb.val < x'.acc.Mb.val := by
  obtain ⟨o, h⟩ := plainRotor_evaluate 4 (by norm_num)
  obtain ⟨o', h', -, hall⟩ := evaluate_resplit (R := plainRotor.withSectors 4) (B' := 2) (by simp [plainRotor, demoRotor, Rotor.withSectors])
    (by norm_num) rfl rfl plainBq rfl _ _ h
  obtain ⟨x, e⟩ := List.length_eq_one_iff.mp (evaluate_length h)
  obtain ⟨x', e'⟩ := List.length_eq_one_iff.mp (evaluate_length h')
  obtain ⟨hT, -, -, -, -, -, -, hM⟩ := hall 0 x x' (by rw [e]; rfl) (by rw [e']; rfl)
  obtain ⟨L, hL, -, -, g, -⟩ := plainRotor_axisymmetric.outputs (by norm_num) h (m := 0) (c := ⟨10, 12, 0⟩) rfl (by rw [e]; rfl)
  have hpos : 0 < x.acc.Mb.val := by rw [g]; exact plainRotor_M hL
  refine ⟨o, o', x, x', h, h', e, e', hT, hpos, ?_⟩
  have hb : (((plainRotor.withSectors 4).B : ℕ) : ℝ) = 3 := by norm_num [plainRotor, demoRotor, Rotor.withSectors]
  rw [hM, hb]
  push_cast
  linarith

end Verif
