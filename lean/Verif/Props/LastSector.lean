import Verif.Props.AttachedSolved
import Verif.Props.Twist

/-!
# The object after `evaluate` (C124)
-/

namespace Verif

/-! ## One call -/

/-- `S` is `R` after calls of its methods. -/
private def After (R S : Rotor ℝ) : Prop := SameDesign R S ∧ (R.derivatives = false → S.saved = R.saved)

private theorem after_loads (bq : RootFinder ℝ) (R : Rotor ℝ) (Uinf Omega pitch az : ℝ) :
    After R (distributedAeroLoads bq R Uinf Omega pitch az).1 := by
  refine ⟨sameDesign_loads bq R Uinf Omega pitch az, fun hd => ?_⟩
  unfold distributedAeroLoads
  simp only [hd]
  split
  · rfl
  · cases R.inv <;> rfl

private theorem After.trans {R S T : Rotor ℝ} (h1 : After R S) (h2 : After S T) : After R T := by
  refine ⟨h1.1.trans h2.1, fun hd => ?_⟩
  have hs : S.derivatives = R.derivatives := by
    obtain ⟨⟨p, s, t, rfl, -⟩, -⟩ := h1
    rfl
  exact (h2.2 (hs.trans hd)).trans (h1.2 hd)

/-- A call leaves the same object whatever was called before. -/
private theorem After.loads {R S : Rotor ℝ} (h : After R S) {bq : RootFinder ℝ} {Uinf Omega pitch az : ℝ} {L : LoadsOut ℝ}
    (hL : (distributedAeroLoads bq R Uinf Omega pitch az).2 = .ok L) :
    (distributedAeroLoads bq S Uinf Omega pitch az).1 = (distributedAeroLoads bq R Uinf Omega pitch az).1 := by
  have hs := h.1.stations bq (deg2rad pitch) Omega (rotorWind R Uinf Omega (deg2rad az)) R.n
  obtain ⟨⟨p, s, t, rfl, ht⟩, hsv⟩ := h
  unfold distributedAeroLoads at hL ⊢
  have hw : rotorWind { R with pitch := p, saved := s, theta := t } Uinf Omega (deg2rad az)
    = rotorWind R Uinf Omega (deg2rad az) := rfl
  have hj : ∀ st, loadJac { R with pitch := p, saved := s, theta := t } Uinf Omega (deg2rad az) st
    = loadJac R Uinf Omega (deg2rad az) st := fun _ => rfl
  simp only [hw, hs, hj] at hL ⊢
  cases hst : solveStations bq R (deg2rad pitch) Omega (rotorWind R Uinf Omega (deg2rad az)) R.n with
  | error e => rw [hst] at hL; simp at hL
  | ok st =>
    cases hi : R.inv with
    | none =>
      obtain rfl : t = R.theta := ht hi
      by_cases hd : R.derivatives = true
      · simp only [hd, if_true]
      · obtain rfl : s = R.saved := hsv (by simpa using hd)
        simp only [if_neg hd]
    | some d =>
      by_cases hd : R.derivatives = true
      · simp only [hd, if_true]
      · obtain rfl : s = R.saved := hsv (by simpa using hd)
        simp only [if_neg hd]

/-! ## The loops -/

private theorem sectorLoop_state (bq : RootFinder ℝ) (Uinf Omega pitch : ℝ) (R : Rotor ℝ) : ∀ (azs : List ℝ) (S : Rotor ℝ) (acc : RotorAcc ℝ)
    (S' : Rotor ℝ) (a : RotorAcc ℝ), After R S → sectorLoop bq Uinf Omega pitch azs S acc = (S', .ok a) → After R S' ∧ ∀ az, azs.getLast? = some az →
      ∃ L, distributedAeroLoads bq R Uinf Omega pitch (rad2deg az) = (S', .ok L) ∧ a.W = some (stationArr L.stations SecLoads.W)
  | [], S, acc, S', a, hS, h => by
    simp only [sectorLoop, Prod.mk.injEq] at h
    obtain ⟨rfl, -⟩ := h
    exact ⟨hS, by simp⟩
  | az :: rest, S, acc, S', a, hS, h => by
    unfold sectorLoop at h
    split at h
    · simp at h
    · rename_i S1 L hL
      have hA : After R S1 := by
        have := hS.trans (after_loads bq S Uinf Omega pitch (rad2deg az))
        rwa [hL] at this
      have hR : (distributedAeroLoads bq R Uinf Omega pitch (rad2deg az)).2 = .ok L := by
        rw [← (hS.1.loads bq Uinf Omega pitch (rad2deg az)).1, hL]
      have e1 := hS.loads hR
      rw [hL] at e1
      obtain ⟨i1, i2⟩ := sectorLoop_state bq Uinf Omega pitch R rest S1 _ S' a hA h
      refine ⟨i1, fun z hz => ?_⟩
      cases rest with
      | nil =>
        simp only [List.getLast?_singleton, Option.some.injEq] at hz
        subst hz
        simp only [sectorLoop, Prod.mk.injEq, Except.ok.injEq] at h
        obtain ⟨rfl, rfl⟩ := h
        exact ⟨L, Prod.ext e1.symm hR, rfl⟩
      | cons b rest => exact i2 z (by rwa [List.getLast?_cons_cons] at hz)

private theorem condLoop_state (bq : RootFinder ℝ) (R : Rotor ℝ) (hns : R.nSector ≠ 0) : ∀ (cs : List (Cond ℝ)) (S : Rotor ℝ)
    (S' : Rotor ℝ) (accs : List (RotorAcc ℝ)), After R S → condLoop bq cs S = (S', .ok accs) → ∀ c, cs.getLast? = some c →
      ∃ L a, distributedAeroLoads bq R c.Uinf c.Omega c.pitch ((R.nSector - 1 : ℕ) * (360 / R.nSector)) = (S', .ok L) ∧ accs.getLast? = some a ∧
        a.W = some (stationArr L.stations SecLoads.W)
  | [], _, _, _, _, _ => by simp
  | c :: rest, S, S', accs, hS, h => by
    intro z hz
    unfold condLoop at h
    split at h
    · simp at h
    · rename_i S1 acc h1
      split at h
      · simp at h
      · rename_i S2 l h2
        simp only [Prod.mk.injEq, Except.ok.injEq] at h
        obtain ⟨rfl, rfl⟩ := h
        obtain ⟨i1, i2⟩ := sectorLoop_state bq c.Uinf c.Omega c.pitch R _ S _ S1 acc hS h1
        cases rest with
        | nil =>
          simp only [List.getLast?_singleton, Option.some.injEq] at hz
          subst hz
          simp only [condLoop, Prod.mk.injEq, Except.ok.injEq] at h2
          obtain ⟨rfl, rfl⟩ := h2
          obtain ⟨L, e, hW⟩ := i2 (Num.nat (R.nSector - 1) * (Num.nat 2 * Num.pi / Num.nat R.nSector) + 0) (by
            rw [hS.1.nSector]
            exact arr_getLast? R.nSector (Nat.pos_of_ne_zero hns) _)
          refine ⟨L, acc, ?_, rfl, hW⟩
          rw [← e]
          congr 1
          simp only [num_real, rad2deg]
          have := Real.pi_ne_zero
          field_simp
          push_cast
          ring
        | cons b rest =>
          obtain ⟨L, a, e1, e2, e3⟩ := condLoop_state bq R hns _ S1 S2 l i1 h2 z (by rwa [List.getLast?_cons_cons] at hz)
          exact ⟨L, a, e1, by rw [List.getLast?_cons, e2]; rfl, e3⟩

/-! ## C124 -/

/-- **C124** After a call of `evaluate` the object is as if `distributedAeroLoads` had been called once, at the last azimuth angle
`360 (1 - 1/nSector)` of the last condition, and the relative wind speed returned is the one found there. -/
theorem evaluate_state (bq : RootFinder ℝ) (R R' : Rotor ℝ) (cs : List (Cond ℝ)) (co : Bool) (o : EvalOut ℝ) (h : evaluate bq R cs co = (R', .ok o))
    (c : Cond ℝ) (hc : cs.getLast? = some c) (hns : R.nSector ≠ 0) :
    ∃ L, distributedAeroLoads bq R c.Uinf c.Omega c.pitch (360 - 360 / R.nSector) = (R', .ok L) ∧ o.W = stationArr L.stations SecLoads.W := by
  unfold evaluate at h
  split at h
  · simp at h
  · rename_i S accs hl
    split at h
    · simp at h
    · rename_i W hW
      simp only [Prod.mk.injEq, Except.ok.injEq] at h
      obtain ⟨rfl, rfl⟩ := h
      obtain ⟨L, a, e1, e2, e3⟩ := condLoop_state bq R hns cs R S accs ⟨.refl R, fun _ => rfl⟩ hl c hc
      refine ⟨L, ?_, ?_⟩
      · rw [← e1]
        congr 1
        have : (R.nSector : ℝ) ≠ 0 := by exact_mod_cast hns
        rw [Nat.cast_sub (Nat.one_le_iff_ne_zero.mpr hns)]
        field_simp
        push_cast
        ring
      · rw [e2, Option.bind_some, e3] at hW
        exact (Option.some.inj hW).symm

/-- **C124** In the inverse analysis the twist left behind makes the angle of attack the prescribed one at the last azimuth angle of the last condition. -/
theorem inverse_twist_last (bq : RootFinder ℝ) (R R' : Rotor ℝ) (d : InvData ℝ) (hinv : R.inv = some d) (cs : List (Cond ℝ)) (co : Bool) (o : EvalOut ℝ)
    (h : evaluate bq R cs co = (R', .ok o)) (c : Cond ℝ) (hc : cs.getLast? = some c) (hns : R.nSector ≠ 0) :
    ∃ L, (distributedAeroLoads bq R c.Uinf c.Omega c.pitch (360 - 360 / R.nSector)).2 = .ok L ∧
      ∀ (i : ℕ) (s : Station ℝ), L.stations[i]? = some s → s.phi - R'.theta i - c.pitch * (Real.pi / 180) = d.alpha i := by
  obtain ⟨L, hL, -⟩ := evaluate_state bq R R' cs co o h c hc hns
  exact ⟨L, by rw [hL], fun i s hs => (inverse_alpha bq R R' d hinv _ _ _ _ L hL i s hs).1⟩

/-- **C124** (partial) Without tilt, yaw and shear the twist left behind makes the angle of attack of the last condition the prescribed one at every
azimuth angle.  Missing: other inflow, for which the claim is false, see `inverse_twist_false`. -/
theorem inverse_twist_partial (bq : RootFinder ℝ) (R R' : Rotor ℝ) (hR : Axisymmetric R) (d : InvData ℝ) (hinv : R.inv = some d) (cs : List (Cond ℝ))
    (co : Bool) (o : EvalOut ℝ) (h : evaluate bq R cs co = (R', .ok o)) (c : Cond ℝ) (hc : cs.getLast? = some c) (hns : R.nSector ≠ 0) (az : ℝ) :
    ∃ L, (distributedAeroLoads bq R c.Uinf c.Omega c.pitch az).2 = .ok L ∧
      ∀ (i : ℕ) (s : Station ℝ), L.stations[i]? = some s → s.phi - R'.theta i - c.pitch * (Real.pi / 180) = d.alpha i := by
  obtain ⟨L, hL, e⟩ := inverse_twist_last bq R R' d hinv cs co o h c hc hns
  obtain ⟨L', hL', e'⟩ := hR.loads bq c.Uinf c.Omega c.pitch _ az R.nSector R.nSector (show (distributedAeroLoads bq (R.withSectors R.nSector) _ _ _ _).2 = _ from hL)
  exact ⟨L', hL', fun i s hs => e i s (by rwa [e'] at hs)⟩

/-! ## Yaw -/

/-- A blade designed for zero lift, in a wind 45° off the shaft, two sectors. -/
noncomputable def yawInverse : Rotor ℝ :=
  { demoRotor with inv := some ⟨fun _ => 0, fun _ => 0, fun _ => 0⟩, yaw := Real.pi / 4, nSector := 2 }

private theorem yawInverse_wind (az : ℝ) : rotorWind yawInverse (10 * √2) (60 / Real.pi) az 0 = (10, 20 - 10 * Real.cos az) := by
  have hpi := Real.pi_ne_zero
  have h2 : √2 * √2 = 2 := Real.mul_self_sqrt (by norm_num)
  have e : rotorWind yawInverse (10 * √2) (60 / Real.pi) az 0 = windComponents demoRotor.n demoRotor.r demoRotor.precurve demoRotor.presweep
      demoRotor.precone (Real.pi / 4) demoRotor.tilt az (10 * √2) (60 / Real.pi) demoRotor.hubHt demoRotor.shearExp 0 := rfl
  rw [e]
  unfold windComponents
  simp only [demoRotor_cone, num_real]
  simp only [defineCurvature, xAz, zAz, yAz, demoRotor, shearedWind, num_real, Real.sin_pi_div_four, Real.cos_pi_div_four, Real.sin_zero, Real.cos_zero,
    Real.rpow_zero]
  refine Prod.ext ?_ ?_
  · simp only
    push_cast
    linear_combination 5 * h2
  · simp only
    field_simp
    push_cast
    linear_combination (-(300 : ℝ) * Real.cos az) * h2

/-- Where the coefficients vanish the inflow angle is that of the undisturbed wind. -/
private theorem zero_lift_angle {bq : RootFinder ℝ} (hbq : FindsCrossing bq) {R R' : Rotor ℝ} {d : InvData ℝ} (hinv : R.inv = some d) {i : ℕ}
    (hcl : d.cl i = 0) (hcd : d.cd i = 0) {U Omega pitch az : ℝ} (hO : Omega ≠ 0) {L : LoadsOut ℝ} {s : Station ℝ}
    (h : distributedAeroLoads bq R U Omega pitch az = (R', .ok L)) (hs : L.stations[i]? = some s) {Vx Vy p : ℝ}
    (hV : rotorWind R U Omega (deg2rad az) i = (Vx, Vy)) (hy : 0 < Vy) (hp : 1 / 1000000 ≤ p) (hp2 : p < Real.pi / 2)
    (ht : Vy * Real.sin p = Vx * Real.cos p) : s.phi = p := by
  have hpi := Real.pi_pos
  have e : ∀ x, 0 < x → stationResidual R U Omega pitch az i x = Real.sin x - Vx / Vy * Real.cos x := fun x h0 => by
    unfold stationResidual
    simp only [hV, hinv, errFunInv, hcl, hcd]
    simp [inductionFactors, normalCoef, tangCoef, bemK, bemKp, axialInduction, bemResidual, num_real, h0]
    rw [if_pos (by norm_num)]
    field_simp
    simp
  have hc : 0 < Real.cos p := Real.cos_pos_of_mem_Ioo ⟨by linarith, hp2⟩
  have sgn : ∀ x, 0 < x → stationResidual R U Omega pitch az i x = Real.sin (x - p) / Real.cos p := fun x h0 => by
    rw [e x h0, Real.sin_sub]
    field_simp
    linear_combination Real.cos x * ht
  have f1 : ∀ x, 1 / 1000000 ≤ x → x < p → stationResidual R U Omega pitch az i x < 0 := fun x h1 h2 => by
    rw [sgn x (lt_of_lt_of_le (by norm_num) h1)]
    exact div_neg_of_neg_of_pos (Real.sin_neg_of_neg_of_neg_pi_lt (by linarith) (by linarith)) hc
  have f2 : ∀ x, p < x → x ≤ Real.pi / 2 → 0 < stationResidual R U Omega pitch az i x := fun x h1 h2 => by
    rw [sgn x (by linarith)]
    exact div_pos (Real.sin_pos_of_pos_of_lt_pi (by linarith) (by linarith)) hc
  have f0 : stationResidual R U Omega pitch az i p = 0 := by rw [sgn p (by linarith), sub_self, Real.sin_zero, zero_div]
  have hb : bracket (stationResidual R U Omega pitch az i) = (1 / 1000000, Real.pi / 2) := by
    refine (bracket_choice _).1 ?_
    rcases hp.eq_or_lt with hE | hlt
    · rw [hE, f0, zero_mul]
    · exact (mul_neg_of_neg_of_pos (f1 _ le_rfl hlt) (f2 _ hp2 le_rfl)).le
  have hfind := hbq _ _ _ p ⟨hp, hp2.le⟩ f1 f0 f2
  obtain ⟨-, a1, -⟩ := solveStation_real (loads_station h hs).2
  have hf : stationErrf R (deg2rad pitch) (rotorWind R U Omega (deg2rad az)) i = stationResidual R U Omega pitch az i := rfl
  unfold stationPhi at a1
  rw [if_neg (by simpa using hO), hf] at a1
  split_ifs at a1
  unfold solvePhi at a1
  simp only [hb, hfind, Except.ok.injEq, Prod.mk.injEq] at a1
  exact a1.1.symm

/-- **C124** (fails) With yaw the twist left behind does not make the angle of attack the prescribed one in the other sectors: at azimuth 0 the inflow
angle of the first station of `yawInverse` is 45°, and the twist left behind is the one for an inflow of which the tangent is 1/3. -/
theorem inverse_twist_false (bq : RootFinder ℝ) (hbq : FindsCrossing bq) (hbe : OnlyValueError bq) :
    ∃ R' o L s, evaluate bq yawInverse [⟨10 * √2, 60 / Real.pi, 0⟩] false = (R', .ok o) ∧
      (distributedAeroLoads bq yawInverse (10 * √2) (60 / Real.pi) 0 0).2 = .ok L ∧ L.stations[0]? = some s ∧ s.phi - s.theta - 0 = 0 ∧
      s.phi - R'.theta 0 - 0 ≠ 0 := by
  have hpi := Real.pi_gt_three
  have hO : 60 / Real.pi ≠ 0 := by positivity
  have hit : yawInverse.iterRe ≠ 0 := by simp [yawInverse, demoRotor]
  have hns : yawInverse.nSector ≠ 0 := by simp [yawInverse]
  have hd : yawInverse.derivatives = false := rfl
  obtain ⟨o, x, ho, -⟩ := evaluate_total hbe yawInverse ⟨10 * √2, 60 / Real.pi, 0⟩ false hit hd hO hns
  obtain ⟨L, hL, hlen, -⟩ := distributedAeroLoads_finds bq hbe yawInverse (10 * √2) (60 / Real.pi) 0 0 hit hd (by simp)
  obtain ⟨s, hs⟩ : ∃ s, L.stations[0]? = some s := ⟨_, List.getElem?_eq_getElem (by rw [hlen]; simp [yawInverse, demoRotor])⟩
  obtain ⟨R', hR'⟩ : ∃ R', evaluate bq yawInverse [⟨10 * √2, 60 / Real.pi, 0⟩] false = (R', .ok o) := ⟨_, Prod.ext rfl ho⟩
  obtain ⟨R1, hR1⟩ : ∃ R1, distributedAeroLoads bq yawInverse (10 * √2) (60 / Real.pi) 0 0 = (R1, .ok L) := ⟨_, Prod.ext rfl hL⟩
  have hphi : s.phi = Real.pi / 4 := by
    refine zero_lift_angle hbq rfl rfl rfl hO hR1 hs (yawInverse_wind _) ?_ (by linarith) (by linarith) ?_
    · simp [real_deg2rad]; norm_num
    · simp [real_deg2rad]; norm_num
  obtain ⟨L2, hL2, e2⟩ := inverse_twist_last bq yawInverse R' _ rfl _ false o hR' ⟨10 * √2, 60 / Real.pi, 0⟩ rfl hns
  obtain ⟨R2, hR2⟩ : ∃ R2, distributedAeroLoads bq yawInverse (10 * √2) (60 / Real.pi) 0 (360 - 360 / yawInverse.nSector) = (R2, .ok L2) := ⟨_, Prod.ext rfl hL2⟩
  obtain ⟨s2, hs2⟩ : ∃ s, L2.stations[0]? = some s :=
    ⟨_, List.getElem?_eq_getElem (by rw [(solveStations_ok (distributedAeroLoads_stations hR2)).1]; simp [yawInverse, demoRotor])⟩
  have haz : deg2rad (360 - 360 / (yawInverse.nSector : ℝ)) = Real.pi := by
    rw [real_deg2rad, show (yawInverse.nSector : ℝ) = 2 by simp [yawInverse]]
    ring
  have hphi2 : s2.phi = Real.arctan (1 / 3) := by
    refine zero_lift_angle hbq rfl rfl rfl hO hR2 hs2 (yawInverse_wind _) ?_ ?_ (Real.arctan_lt_pi_div_two _) ?_
    · rw [haz]; norm_num
    · have h1 : Real.tan (1 / 1000000) ≤ 1 / 3 := by
        have h2 := Real.one_sub_sq_div_two_le_cos (x := 1 / 1000000)
        have h3 : Real.sin (1 / 1000000) ≤ 1 / 1000000 := Real.sin_le (by norm_num)
        rw [Real.tan_eq_sin_div_cos, div_le_iff₀ (lt_of_lt_of_le (by norm_num) h2)]
        norm_num at h2 h3 ⊢
        linarith
      rw [← Real.arctan_tan (x := 1 / 1000000) (by linarith) (by linarith)]
      exact Real.arctan_le_arctan_iff.mpr h1
    · rw [haz, Real.sin_arctan, Real.cos_arctan, Real.cos_pi]
      ring
  have ha := e2 0 s2 hs2
  obtain ⟨-, -, ht, -⟩ := solveStation_real (loads_station hR1 hs).2
  refine ⟨R', o, L, s, hR', hL, hs, ?_, ?_⟩
  · rw [ht]
    simp [stationTheta, yawInverse, real_deg2rad]
  · have hne : Real.pi / 4 ≠ Real.arctan (1 / 3) := by
      rw [← Real.arctan_one]
      exact fun h => absurd (Real.arctan_injective h) (by norm_num)
    rw [hphi2] at ha
    rw [hphi]
    intro hc
    apply hne
    simp only [zero_mul] at ha
    linarith

/-- A root finder as assumed exists. -/
example : ∃ R' o L s, evaluate someRoot yawInverse [⟨10 * √2, 60 / Real.pi, 0⟩] false = (R', .ok o) ∧
    (distributedAeroLoads someRoot yawInverse (10 * √2) (60 / Real.pi) 0 0).2 = .ok L ∧ L.stations[0]? = some s ∧ s.phi - s.theta - 0 = 0 ∧
    s.phi - R'.theta 0 - 0 ≠ 0 :=
  inverse_twist_false someRoot someRoot_crossing someRoot_onlyValueError

/-- The hypotheses of `inverse_twist_partial` are met: two conditions, the twist left behind is the one of the second. -/
example (az : ℝ) : ∃ R' o L s, evaluate demoBq demoInverse [⟨8, 9, 0⟩, ⟨10, 12, 3⟩] false = (R', .ok o) ∧
    (distributedAeroLoads demoBq demoInverse 10 12 3 az).2 = .ok L ∧ L.stations[1]? = some s ∧
    s.phi - R'.theta 1 - 3 * (Real.pi / 180) = 1 / 10 := by
  have hit : demoInverse.iterRe ≠ 0 := by simp [demoInverse, demoRotor]
  have hns : demoInverse.nSector ≠ 0 := by simp [demoInverse, demoRotor]
  have hd : demoInverse.derivatives = false := rfl
  obtain ⟨o, ho⟩ := evaluate_conditions_ok demoBq demoInverse [⟨8, 9, 0⟩, ⟨10, 12, 3⟩] false (by simp) fun c hc => by
    have hO : c.Omega ≠ 0 := by
      simp only [List.mem_cons, List.not_mem_nil, or_false] at hc
      rcases hc with rfl | rfl <;> norm_num
    obtain ⟨o, x, h, -⟩ := evaluate_total demoBq_onlyValueError demoInverse c false hit hd hO hns
    exact ⟨o, h⟩
  obtain ⟨L, hL, e⟩ := inverse_twist_partial demoBq demoInverse _ ⟨rfl, rfl, rfl⟩ _ rfl _ false o (Prod.ext rfl ho) ⟨10, 12, 3⟩ rfl hns az
  have hlen := (solveStations_ok (distributedAeroLoads_stations (Prod.ext rfl hL))).1
  obtain ⟨s, hs⟩ : ∃ s, L.stations[1]? = some s := ⟨_, List.getElem?_eq_getElem (by rw [hlen]; simp [demoInverse, demoRotor])⟩
  exact ⟨_, o, L, s, Prod.ext rfl ho, hL, hs, e 1 s hs⟩

end Verif
