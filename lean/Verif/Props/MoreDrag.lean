import Verif.Props.MoreLift

/-!
# Airfoils with more drag (C128)

With `usecd=True` drag enters the momentum balance: it slows the flow through the disc, so that the thrust rises. The inflow angle falls, and with it the
lift and its share in the tangential force, so that torque and power fall by more than the added drag alone.
-/

open Real

namespace Verif

/-! ## The section -/

section
variable {o : BemOpts} {B : ℕ} {r chord Rhub Rtip Vx Vy : ℝ} {cl cd cd' : ℝ → ℝ} {p q : ℝ}

/-- **C128** A section with two drag curves, solved with both, with lift, drag in the residual and wake rotation off: with more drag the inflow angle is
smaller, the normal force larger, and the tangential force smaller if it drove the rotor before. -/
theorem section_drag (hB : 0 < B) (hRhub : 0 < Rhub) (h1 : Rhub < r) (h2 : r < Rtip) (hc : 0 < chord) (hVx : 0 < Vx) (hVy : 0 < Vy)
    (ho : o.useCd = true) (hw : o.wakeRot = false) (hatt : AttachedFlow o B r Rhub Rtip cl cd) (hatt' : AttachedFlow o B r Rhub Rtip cl cd')
    (hmore : ∀ x ∈ Set.Ioo 0 (π / 2), cd x < cd' x) (hp : p ∈ Set.Ioo 0 (π / 2))
    (hroot : (inductionFactors r chord Rhub Rtip p (cl p) (cd p) B Vx Vy o).fzero = 0)
    (hreg : RegularK (lossSpec o B r Rhub Rtip p) (kSpec o B r chord Rhub Rtip p (cl p) (cd p))) (hcl : 0 ≤ cl p)
    (hq : q ∈ Set.Ioo 0 (π / 2)) (hroot' : (inductionFactors r chord Rhub Rtip q (cl q) (cd' q) B Vx Vy o).fzero = 0)
    (hreg' : RegularK (lossSpec o B r Rhub Rtip q) (kSpec o B r chord Rhub Rtip q (cl q) (cd' q))) (hcl' : 0 < cl q) :
    let I := inductionFactors r chord Rhub Rtip p (cl p) (cd p) B Vx Vy o
    let J := inductionFactors r chord Rhub Rtip q (cl q) (cd' q) B Vx Vy o
    q < p ∧ relSpeed p I.a I.ap Vx Vy ^ 2 * (cl p * cos p + cd p * sin p) < relSpeed q J.a J.ap Vx Vy ^ 2 * (cl q * cos q + cd' q * sin q) ∧
      (DragPolar cl cd → 0 ≤ relSpeed p I.a I.ap Vx Vy ^ 2 * (cl p * sin p - cd p * cos p) →
        relSpeed q J.a J.ap Vx Vy ^ 2 * (cl q * sin q - cd' q * cos q) < relSpeed p I.a I.ap Vx Vy ^ 2 * (cl p * sin p - cd p * cos p)) := by
  intro I J
  have hr : 0 < r := hRhub.trans h1
  have hpi := pi_pos
  have hBr : (0 : ℝ) < B := by exact_mod_cast hB
  have hs : 0 < sin p := sin_pos_of_pos_of_lt_pi hp.1 (by linarith [hp.2])
  have hcp : 0 < cos p := cos_pos_of_mem_Ioo ⟨by linarith [hp.1], hp.2⟩
  have ht : 0 < tan p := tan_pos_of_pos_of_lt_pi_div_two hp.1 hp.2
  have hlt : q < p := by
    by_contra h
    push Not at h
    have e := sectionSide_root (cl := cl) (cd := cd) hB hRhub h1 h2 hVy hp.1 hp.2 hreg hroot
    have e' := sectionSide_root (cl := cl) (cd := cd') hB hRhub h1 h2 hVy hq.1 hq.2 hreg' hroot'
    have hF := (lossSpec_range o B hB r Rhub Rtip p hRhub h1 h2 hp.1 (by linarith [hp.2])).1
    have l : sectionSide o B r chord Rhub Rtip Vx Vy cl cd p < sectionSide o B r chord Rhub Rtip Vx Vy cl cd' p := by
      unfold sectionSide sectionSwirl sectionWake
      simp only [hw, Bool.false_eq_true, if_false, mul_zero, add_zero]
      refine mul_lt_mul_of_pos_left (wakeOf_strict hF ?_) ht
      have := hmore p hp
      unfold forceK usedDrag
      rw [if_pos ho, if_pos ho]
      gcongr
    rcases lt_or_eq_of_le h with h | h
    · have m := sectionSide_lt (cl := cl) (cd := cd') hB hRhub h1 h2 hc hVx hVy hatt' hp.1 h hq.2 hcl'.le
      linarith
    · rw [← h] at e'
      linarith
  refine ⟨hlt, section_slower hB hRhub h1 h2 hc hVx hVy ho hw hatt' hp hroot hreg hq hroot' hreg' hcl'.le hlt, fun hdrag hdrive => ?_⟩
  obtain ⟨-, t⟩ := section_speed hB hRhub h1 h2 hc hVx hVy hatt hp hroot hreg hcl
  obtain ⟨-, t'⟩ := section_speed hB hRhub h1 h2 hc hVx hVy hatt' hq hroot' hreg' hcl'.le
  have s0 : sectionSwirl o B r chord Rhub Rtip cl cd p = 0 := by simp [sectionSwirl, hw]
  have s0' : sectionSwirl o B r chord Rhub Rtip cl cd' q = 0 := by simp [sectionSwirl, hw]
  rw [s0, sub_zero, div_one] at t
  rw [s0', sub_zero, div_one] at t'
  have hcq : 0 < cos q := cos_pos_of_mem_Ioo ⟨by linarith [hq.1], hq.2⟩
  have hW : 0 < relSpeed q J.a J.ap Vx Vy ^ 2 := by
    refine pos_of_mul_pos_left (b := cos q ^ 2) ?_ (by positivity)
    refine lt_of_lt_of_eq ?_ t'.symm
    positivity
  rcases lt_or_ge (cl q * sin q - cd' q * cos q) 0 with hn | hn
  · exact (mul_neg_of_pos_of_neg hW hn).trans_le hdrive
  · -- the old drag at the new angle is below the new drag
    have m := hmore q hq
    have hn' : 0 ≤ cl q * sin q - cd q * cos q := hn.trans (by nlinarith)
    refine lt_trans (mul_lt_mul_of_pos_left (sub_lt_sub_left (mul_lt_mul_of_pos_right m hcq) _) hW) ?_
    exact (forces_rise hq.1 hlt hp.2 (by positivity) le_rfl t' t hcl' (hatt.lift hq.1 hlt.le hp.2.le) (hdrag.drag hq.1 hlt.le hp.2.le).1
      (hdrag.drag hq.1 hlt.le hp.2.le).2).2 (hdrag.glide hq.1 hlt.le hp.2.le) hn'

end

/-! ## The station -/

/-- The airfoil of station `i` on the second rotor has the lift of that on the first and, at every inflow angle in the first quadrant, more drag. -/
structure MoreDrag (R R' : Rotor ℝ) (Uinf Omega pitch az : ℝ) (i : ℕ) : Prop where
  lift : ∀ phi, (stationPolar R' Uinf Omega pitch az i phi).1 = (stationPolar R Uinf Omega pitch az i phi).1
  drag : ∀ phi ∈ Set.Ioo 0 (π / 2), (stationPolar R Uinf Omega pitch az i phi).2 < (stationPolar R' Uinf Omega pitch az i phi).2

/-- **C128** A station on two rotors that differ in the drag of the airfoils only, solved on both with lift: with more drag inflow angle and angle of attack
are smaller, the normal force is larger, and the tangential force smaller if it drove the rotor before. -/
theorem station_drag {R : Rotor ℝ} {af' : ℕ → AirfoilI ℝ} {Uinf Omega pitch az : ℝ} {i : ℕ} (bq : RootFinder ℝ) (hbq : ExactRoots bq) (hinv : R.inv = none)
    (hre : FixedRe R i) (hre' : FixedRe (R.withAirfoils af') i) (hO : Omega ≠ 0) (hrho : 0 < R.rho) (hcd : R.opts.useCd = true)
    (hwr : R.opts.wakeRot = false) (hatt : AttachedStation R Uinf Omega pitch az i) (hatt' : AttachedStation (R.withAirfoils af') Uinf Omega pitch az i)
    (hmore : MoreDrag R (R.withAirfoils af') Uinf Omega pitch az i)
    (R1 R2 : Rotor ℝ) (L L' : LoadsOut ℝ) (h : distributedAeroLoads bq R Uinf Omega pitch az = (R1, .ok L))
    (h' : distributedAeroLoads bq (R.withAirfoils af') Uinf Omega pitch az = (R2, .ok L')) (s s' : Station ℝ) (hs : L.stations[i]? = some s)
    (hs' : L'.stations[i]? = some s') (S : SolvedWithLift R Uinf Omega pitch az i s) (S' : SolvedWithLift (R.withAirfoils af') Uinf Omega pitch az i s')
    (hcl : 0 < s'.loads.cl) :
    s'.phi < s.phi ∧ s'.loads.alpha < s.loads.alpha ∧ s.loads.Np < s'.loads.Np ∧
      (DragPolar (fun p => (stationPolar R Uinf Omega pitch az i p).1) (fun p => (stationPolar R Uinf Omega pitch az i p).2) → 0 ≤ s.loads.Tp →
        s'.loads.Tp < s.loads.Tp) := by
  have hpi := pi_gt_three
  obtain ⟨Vx, Vy, hV⟩ : ∃ Vx Vy, rotorWind R Uinf Omega (az * (π / 180)) i = (Vx, Vy) := ⟨_, _, rfl⟩
  have hV' : rotorWind (R.withAirfoils af') Uinf Omega (az * (π / 180)) i = (Vx, Vy) := hV
  obtain ⟨hB, hRhub, h1, h2, hc, hVx, hVy, hflow⟩ := hatt
  have hflow' := hatt'.flow
  rw [hV] at hVx hVy
  simp only at hVx hVy
  have hl := hmore.lift
  obtain ⟨f1, f2, f3, f4⟩ := station_facts hinv hre h hO hs hV hVx.ne' hVy.ne'
  obtain ⟨g1, g2, g3, g4⟩ := station_facts (R := R.withAirfoils af') hinv hre' h' hO hs' hV' hVx.ne' hVy.ne'
  have e := stationResidual_const (Uinf := Uinf) (Omega := Omega) (pitch := pitch) (az := az) hinv hre
  have e' := stationResidual_const (R := R.withAirfoils af') (Uinf := Uinf) (Omega := Omega) (pitch := pitch) (az := az) hinv hre'
  rw [hV] at e
  rw [hV'] at e'
  have r1 := S.regular
  have r2 := S'.regular
  have l1 := S.lift
  unfold RegularAngle at r1 r2
  obtain ⟨z, -, -⟩ := exact_interval hbq h hO hs S.solved
  obtain ⟨z', -, -⟩ := exact_interval (R := R.withAirfoils af') hbq h' hO hs' S'.solved
  rw [e] at z
  rw [e'] at z'
  rw [f1] at l1
  rw [g1] at hcl
  rw [hl] at g1 g3 z' r2 hcl
  simp only [hl] at hflow'
  obtain ⟨k1, k2, k3⟩ := section_drag (cl := fun p => (stationPolar R Uinf Omega pitch az i p).1) (cd := fun p => (stationPolar R Uinf Omega pitch az i p).2)
    (cd' := fun p => (stationPolar (R.withAirfoils af') Uinf Omega pitch az i p).2)
    hB hRhub h1 h2 hc hVx hVy hcd hwr hflow hflow' hmore.drag S.angle z r1 l1 S'.angle z' r2 hcl
  obtain ⟨a1, a2, a3, -⟩ := distributedAeroLoads_forces bq R R1 _ _ _ _ L h i s hs
  obtain ⟨b1, b2, b3, -⟩ := distributedAeroLoads_forces bq _ R2 _ _ _ _ L' h' i s' hs'
  have hch : (R.withAirfoils af').chord i = R.chord i := rfl
  have hrho' : (R.withAirfoils af').rho = R.rho := rfl
  have hth' : (R.withAirfoils af').theta i = R.theta i := rfl
  rw [hch] at b2 b3
  rw [hrho'] at b1
  rw [hth'] at g4
  have g3' : s'.loads.W = relSpeed s'.phi (inductionFactors (R.r i) (R.chord i) R.Rhub R.Rtip s'.phi (stationPolar R Uinf Omega pitch az i s'.phi).1
      (stationPolar (R.withAirfoils af') Uinf Omega pitch az i s'.phi).2 R.B Vx Vy R.opts).a (inductionFactors (R.r i) (R.chord i) R.Rhub R.Rtip s'.phi
      (stationPolar R Uinf Omega pitch az i s'.phi).1 (stationPolar (R.withAirfoils af') Uinf Omega pitch az i s'.phi).2 R.B Vx Vy R.opts).ap Vx Vy := g3
  rw [← f3, ← g3'] at k2 k3
  have hC : 0 < R.rho / 2 * R.chord i := by positivity
  refine ⟨k1, ?_, ?_, fun hdrag hdrive => ?_⟩
  · have : s'.loads.alpha * (π / 180) < s.loads.alpha * (π / 180) := by
      rw [f4, g4]
      linarith
    exact lt_of_mul_lt_mul_right this (by positivity)
  · rw [a2, b2, a1, b1, f1, f2, g1, g2]
    have h4 := mul_lt_mul_of_pos_left k2 hC
    refine lt_of_eq_of_lt ?_ (lt_of_lt_of_eq h4 ?_) <;> ring
  · rw [a3, a1, f1, f2] at hdrive
    rw [a3, b3, a1, b1, f1, f2, g1, g2]
    have h4 := mul_lt_mul_of_pos_left (k3 hdrag (nonneg_of_mul_nonneg_right (a := R.rho / 2 * R.chord i) (by
      refine le_of_le_of_eq hdrive ?_
      ring) hC)) hC
    refine lt_of_eq_of_lt ?_ (lt_of_lt_of_eq h4 ?_) <;> ring

/-! ## The rotor -/

/-- **C128** Two straight rotors in axial wind that differ in the drag of the airfoils only, whose residual uses drag but no wake rotation, every station
solvable on both, with lift: with more drag thrust and blade root moment are larger, and torque and power smaller if every station drove the rotor with less
drag. -/
theorem evaluate_drag (bq : RootFinder ℝ) (hbq : ExactRoots bq) (hbc : FindsCrossing bq) (R : Rotor ℝ) (af' : ℕ → AirfoilI ℝ) (cs : List (Cond ℝ))
    (o o' : EvalOut ℝ) (co : Bool) (h : (evaluate bq R cs co).2 = .ok o) (h' : (evaluate bq (R.withAirfoils af') cs co).2 = .ok o') (m : ℕ) (c : Cond ℝ)
    (x x' : CondOut ℝ) (hc : cs[m]? = some c) (hx : o.conds[m]? = some x) (hx' : o'.conds[m]? = some x') (G : StraightRotor R) (hinv : R.inv = none)
    (hre : ∀ i < R.n, FixedRe R i) (hre' : ∀ i < R.n, FixedRe (R.withAirfoils af') i) (hns : 0 < R.nSector) (hrho : 0 < R.rho)
    (hcd : R.opts.useCd = true) (hwr : R.opts.wakeRot = false) (hO : 0 < c.Omega)
    (hmore : ∀ i < R.n, MoreDrag R (R.withAirfoils af') c.Uinf c.Omega c.pitch 0 i) (phi0 phi0' : ℕ → ℝ)
    (D : ∀ i < R.n, Solvable R c.Uinf c.Omega c.pitch 0 i (phi0 i))
    (D' : ∀ i < R.n, Solvable (R.withAirfoils af') c.Uinf c.Omega c.pitch 0 i (phi0' i))
    (hlift : ∀ i < R.n, 0 < (stationPolar R c.Uinf c.Omega c.pitch 0 i (phi0' i)).1) :
    x.acc.T.val < x'.acc.T.val ∧ x.acc.Mb.val < x'.acc.Mb.val ∧
    ((∀ i < R.n, DragPolar (fun p => (stationPolar R c.Uinf c.Omega c.pitch 0 i p).1) (fun p => (stationPolar R c.Uinf c.Omega c.pitch 0 i p).2)) →
      (∀ k < R.nSector, ∀ L, (distributedAeroLoads bq R c.Uinf c.Omega c.pitch (k * (360 / R.nSector))).2 = .ok L →
        ∀ (i : ℕ) (s : Station ℝ), L.stations[i]? = some s → 0 ≤ s.loads.Tp) → x'.acc.Q.val < x.acc.Q.val ∧ x'.P.val < x.P.val) := by
  obtain ⟨L, hL, hT, hQ, hM, -⟩ := sector_averages h hc hx
  obtain ⟨L', hL', hT', hQ', hM', -⟩ := sector_averages h' hc hx'
  have hP := (evaluate_entry h hc hx).2.1
  have hP' := (evaluate_entry h' hc hx').2.1
  have hpi := pi_pos
  have hcos := G.cos_pos
  have hn := G.n
  have hB : 0 < R.B := (D 0 (by omega)).flow.blades
  have hBr : (0 : ℝ) < R.B := by exact_mod_cast hB
  have G' : StraightRotor (R.withAirfoils af') :=
    ⟨G.n, G.hub, G.first, G.inc, G.last, G.curve, G.curveTip, G.sweep, G.sweepTip, G.cone, G.radius, ⟨G.axial.1, G.axial.2, G.axial.3⟩⟩
  have key : ∀ k < R.nSector, ∀ i < R.n, ∃ s s' : Station ℝ, (L k).stations[i]? = some s ∧ (L' k).stations[i]? = some s' ∧ s.loads.Np < s'.loads.Np ∧
      (DragPolar (fun p => (stationPolar R c.Uinf c.Omega c.pitch 0 i p).1) (fun p => (stationPolar R c.Uinf c.Omega c.pitch 0 i p).2) →
        0 ≤ s.loads.Tp → s'.loads.Tp < s.loads.Tp) := by
    intro k hk i hi
    obtain ⟨R1, e1⟩ : ∃ R', distributedAeroLoads bq R c.Uinf c.Omega c.pitch (k * (360 / R.nSector)) = (R', .ok (L k)) :=
      ⟨_, Prod.ext rfl (hL k hk)⟩
    obtain ⟨R2, e2⟩ : ∃ R', distributedAeroLoads bq (R.withAirfoils af') c.Uinf c.Omega c.pitch (k * (360 / R.nSector)) = (R', .ok (L' k)) :=
      ⟨_, Prod.ext rfl (hL' k hk)⟩
    obtain ⟨s, hs⟩ : ∃ s, (L k).stations[i]? = some s :=
      ⟨_, List.getElem?_eq_getElem (by rw [(solveStations_ok (distributedAeroLoads_stations e1)).1]; exact hi)⟩
    obtain ⟨s', hs'⟩ : ∃ s, (L' k).stations[i]? = some s :=
      ⟨_, List.getElem?_eq_getElem (by rw [(solveStations_ok (distributedAeroLoads_stations e2)).1]; exact hi)⟩
    have E := G.solvable hinv hi (hre i hi) (D i hi) (k * (360 / R.nSector))
    have E' := G'.solvable hinv hi (hre' i hi) (D' i hi) (k * (360 / R.nSector))
    have S := (attached_solved hbc hinv (hre i hi) hO.ne' E e1 hs).1
    obtain ⟨S', hge, -⟩ := attached_solved (R := R.withAirfoils af') hbc hinv (hre' i hi) hO.ne' E' e2 hs'
    have A' := E'.flow
    have pol : stationPolar R c.Uinf c.Omega c.pitch (k * (360 / R.nSector)) i = stationPolar R c.Uinf c.Omega c.pitch 0 i := by
      funext p
      simp only [stationPolar, G.stationRe c.Uinf c.Omega (k * (360 / R.nSector)) hi]
    have pol' : stationPolar (R.withAirfoils af') c.Uinf c.Omega c.pitch (k * (360 / R.nSector)) i
        = stationPolar (R.withAirfoils af') c.Uinf c.Omega c.pitch 0 i := by
      funext p
      simp only [stationPolar, G'.stationRe c.Uinf c.Omega (k * (360 / R.nSector)) hi]
    obtain ⟨f1, -⟩ := station_facts (R := R.withAirfoils af') hinv (hre' i hi) e2 hO.ne' hs'
      (Vx := (rotorWind (R.withAirfoils af') c.Uinf c.Omega (k * (360 / R.nSector) * (π / 180)) i).1)
      (Vy := (rotorWind (R.withAirfoils af') c.Uinf c.Omega (k * (360 / R.nSector) * (π / 180)) i).2) rfl A'.front.ne' A'.sense.ne'
    have hcl : 0 < s'.loads.cl := by
      rw [f1]
      refine lt_of_lt_of_le ?_ (A'.flow.lift (lt_of_lt_of_le (by norm_num) E'.start.1) hge S'.angle.2.le)
      rw [pol', (hmore i hi).lift]
      exact hlift i hi
    have hm : MoreDrag R (R.withAirfoils af') c.Uinf c.Omega c.pitch (k * (360 / R.nSector)) i :=
      ⟨fun p => by rw [pol, pol']; exact (hmore i hi).lift p, fun p hp => by rw [pol, pol']; exact (hmore i hi).drag p hp⟩
    obtain ⟨-, -, n, t⟩ := station_drag bq hbq hinv (hre i hi) (hre' i hi) hO.ne' hrho hcd hwr E.flow A' hm R1 R2 _ _ e1 e2 s s' hs hs' S S' hcl
    rw [pol] at t
    exact ⟨s, s', hs, hs', n, t⟩
  have arr : ∀ {l : List (Station ℝ)} {i : ℕ} {s : Station ℝ} (f : SecLoads ℝ → ℝ), l[i]? = some s → stationArr l f i = f s.loads := by
    intro l i s f hs
    simp [stationArr, hs]
  have hN : ∀ k < R.nSector, ∀ i < R.n, stationArr (L k).stations SecLoads.Np i < stationArr (L' k).stations SecLoads.Np i := fun k hk i hi => by
    obtain ⟨s, s', hs, hs', n, -⟩ := key k hk i hi
    rw [arr SecLoads.Np hs, arr SecLoads.Np hs']
    exact n
  refine ⟨?_, ?_, fun hdrag hdrive => ?_⟩
  · rw [hT, hT']
    refine mul_lt_mul_of_pos_left (mean_lt hns fun k hk => ?_) hBr
    simp only
    rw [(G.blade_integrals (L k)).1, (G'.blade_integrals (L' k)).1]
    exact G.integral_lt fun i hi => mul_lt_mul_of_pos_right (hN k hk i hi) hcos
  · rw [hM, hM']
    refine mean_lt hns fun k hk => ?_
    simp only
    rw [(G.blade_integrals (L k)).2.2, (G'.blade_integrals (L' k)).2.2]
    exact G.integral_lt fun i hi => mul_lt_mul_of_pos_right (hN k hk i hi) (mul_pos (G.hub.trans (G.range hi).1) hcos)
  · have hQlt : x'.acc.Q.val < x.acc.Q.val := by
      rw [hQ, hQ']
      refine mul_lt_mul_of_pos_left (mean_lt hns fun k hk => ?_) hBr
      simp only
      rw [(G.blade_integrals (L k)).2.1, (G'.blade_integrals (L' k)).2.1]
      refine G.integral_lt fun i hi => ?_
      obtain ⟨s, s', hs, hs', -, t⟩ := key k hk i hi
      rw [arr SecLoads.Tp hs, arr SecLoads.Tp hs']
      exact mul_lt_mul_of_pos_right (t (hdrag i hi) (hdrive k hk _ (hL k hk) i s hs)) (mul_pos (G.hub.trans (G.range hi).1) hcos)
    refine ⟨hQlt, ?_⟩
    rw [hP, hP']
    simp only [power, num_real]
    gcongr

/-! ## An example -/

/-- Airfoils with lift coefficient `sin² α` and drag coefficient `d` -/
noncomputable def constantDrag (d : ℝ) : ℕ → AirfoilI ℝ :=
  fun _ => ⟨fun alpha _ => (sin alpha ^ 2, d), fun _ _ => 0, fun _ _ => 0, fun _ _ => 0, fun _ _ => 0⟩

/-- `chordRotor 1` with the airfoils `constantDrag d` -/
noncomputable def draggedRotor (d : ℝ) : Rotor ℝ := (chordRotor 1).withAirfoils (constantDrag d)

theorem draggedRotor_straight (d : ℝ) : StraightRotor (draggedRotor d) :=
  have G := chordRotor_straight 1
  ⟨G.n, G.hub, G.first, G.inc, G.last, G.curve, G.curveTip, G.sweep, G.sweepTip, G.cone, G.radius, ⟨G.axial.1, G.axial.2, G.axial.3⟩⟩

theorem draggedRotor_polar (d U Omega az : ℝ) (i : ℕ) (p : ℝ) : stationPolar (draggedRotor d) U Omega 0 az i p = (sin p ^ 2, d) := by
  simp [stationPolar, draggedRotor, constantDrag, Rotor.withAirfoils, chordRotor, annulusRotor]

private theorem sin_tenth : 9 / 100 ≤ sin (1 / 10) := by
  have := sin_gt_sub_cube (x := 1 / 10) (by norm_num)
  norm_num at this ⊢
  linarith

theorem draggedRotor_solvable {d : ℝ} (hd0 : 0 ≤ d) (hd : d ≤ 1 / 2000) {i : ℕ} (hi : i < 2) :
    Solvable (draggedRotor d) 6 (30 / π) 0 0 i (1 / 10) := by
  have hpi := pi_gt_three
  have G := draggedRotor_straight d
  have hV := G.wind 6 (30 / π) (0 * (π / 180)) hi
  have hV' : rotorWind (draggedRotor d) 6 (30 / π) (0 * (π / 180)) i = (6, 6 + (i : ℝ)) := by
    rw [hV]
    simp [draggedRotor, Rotor.withAirfoils, chordRotor, annulusRotor, demoRotor, pi_ne_zero]
  have hr := G.range hi
  have hir : (i : ℝ) ≤ 1 := by exact_mod_cast (by omega : i ≤ 1)
  have hi0 : (0 : ℝ) ≤ i := by positivity
  have hpol := fun p => draggedRotor_polar d 6 (30 / π) 0 i p
  have hB : 0 < (draggedRotor d).B := by simp [draggedRotor, Rotor.withAirfoils, chordRotor, annulusRotor, demoRotor]
  have hchord : (draggedRotor d).chord i = 2 * π * (6 + i) / 3 := by
    simp [draggedRotor, Rotor.withAirfoils, chordRotor, annulusRotor]
  have hF : ∀ p, lossSpec (draggedRotor d).opts (draggedRotor d).B ((draggedRotor d).r i) (draggedRotor d).Rhub (draggedRotor d).Rtip p = 1 := fun p => by
    simp [lossSpec, draggedRotor, Rotor.withAirfoils, chordRotor, annulusRotor]
  have h0 : (0 : ℝ) < 1 / 10 := by norm_num
  have hlt : (1 / 10 : ℝ) < π / 2 := by linarith
  have hst := sin_tenth
  have hcp : 3 / 4 ≤ cos (1 / 10) := by
    have := one_sub_sq_div_two_le_cos (x := 1 / 10)
    norm_num at this ⊢
    linarith
  have hk : kSpec (draggedRotor d).opts (draggedRotor d).B ((draggedRotor d).r i) ((draggedRotor d).chord i) (draggedRotor d).Rhub (draggedRotor d).Rtip
      (1 / 10) (sin (1 / 10) ^ 2) d ≤ 2 / 3 := by
    unfold kSpec cnSpec
    rw [hF, hchord]
    have hs : 0 < sin (1 / 10) := by linarith
    have hc1 := cos_le_one (1 / 10)
    have e : ((draggedRotor d).B : ℝ) * (2 * π * (6 + i) / 3) / (2 * π * (draggedRotor d).r i) = 1 := by
      have hr0 : (0 : ℝ) < 6 + i := by positivity
      simp only [draggedRotor, Rotor.withAirfoils, chordRotor, annulusRotor, demoRotor]
      push_cast
      field_simp
    have u : (draggedRotor d).opts.useCd = true := rfl
    rw [e, u, if_pos rfl, one_mul, mul_one, div_le_iff₀ (by positivity)]
    have m1 : sin (1 / 10) ^ 2 * cos (1 / 10) ≤ sin (1 / 10) ^ 2 * 1 := mul_le_mul_of_nonneg_left hc1 (by positivity)
    have m2 : d * sin (1 / 10) ≤ sin (1 / 10) * sin (1 / 10) := mul_le_mul_of_nonneg_right (by linarith) hs.le
    nlinarith
  have A : AttachedStation (draggedRotor d) 6 (30 / π) 0 0 i := by
    refine ⟨hB, G.hub, hr.1, hr.2, by rw [hchord]; positivity, by rw [hV']; norm_num, by rw [hV']; simp only; linarith, ?_⟩
    exact attachedFlow_of_constant_drag hB G.hub hr.1 hr.2
      (fun h0 h1 h2 => by
        simp only [hpol]
        exact pow_le_pow_left₀ (sin_nonneg_of_nonneg_of_le_pi h0.le (by linarith)) (sin_le_sin_of_le_of_le_pi_div_two (by linarith) h2 h1) 2)
      fun _ => ⟨d, hd0, fun _ _ _ => by simp only [hpol]⟩
  have hg : ∀ p ∈ Set.Icc (1 / 1000000) (π / 2), GuardFreeAngle (draggedRotor d) 6 (30 / π) 0 0 i p := fun p _ => by
    unfold GuardFreeAngle
    rw [hF]
    exact guardFree_lossless _
  refine ⟨A, hg, ⟨by norm_num, hlt⟩, by rw [hpol]; positivity, by simp only [funext hpol]; fun_prop, ?_⟩
  have hgf := hg (1 / 10) ⟨by norm_num, hlt.le⟩
  have reg := regular_of_lift (cl := fun p => (stationPolar (draggedRotor d) 6 (30 / π) 0 0 i p).1)
    (cd := fun p => (stationPolar (draggedRotor d) 6 (30 / π) 0 0 i p).2)
    A.blades A.hub A.inner A.outer A.chord A.flow h0 hlt.le (by simp only [hpol]; positivity) hgf
  rw [stationResidual_const rfl (.inr fun _ _ _ => rfl)]
  rw [residual_side (cl := fun p => (stationPolar (draggedRotor d) 6 (30 / π) 0 0 i p).1)
    (cd := fun p => (stationPolar (draggedRotor d) 6 (30 / π) 0 0 i p).2) A.blades A.hub A.inner A.outer A.sense h0 hlt reg, hV']
  refine mul_nonpos_of_nonneg_of_nonpos (by linarith) ?_
  have hS : sectionSwirl (draggedRotor d).opts (draggedRotor d).B ((draggedRotor d).r i) ((draggedRotor d).chord i)
      (draggedRotor d).Rhub (draggedRotor d).Rtip (fun p => (stationPolar (draggedRotor d) 6 (30 / π) 0 0 i p).1)
      (fun p => (stationPolar (draggedRotor d) 6 (30 / π) 0 0 i p).2) (1 / 10) = 0 := by
    simp [sectionSwirl, draggedRotor, Rotor.withAirfoils, chordRotor, annulusRotor]
  unfold sectionSide
  rw [hS, mul_zero, add_zero]
  unfold sectionWake
  simp only
  rw [← kSpec_forceK (cl := fun p => (stationPolar (draggedRotor d) 6 (30 / π) 0 0 i p).1)
    (cd := fun p => (stationPolar (draggedRotor d) 6 (30 / π) 0 0 i p).2) A.blades A.hub A.inner A.outer h0 hlt]
  simp only [hpol]
  unfold wakeOf
  rw [if_pos hk]
  generalize kSpec _ _ _ _ _ _ _ _ _ = k at hk ⊢
  have ht : tan (1 / 10) ≤ 1 / 5 := by
    rw [tan_eq_sin_div_cos, div_le_iff₀ (by linarith)]
    have : sin (1 / 10) ≤ 1 / 10 := sin_le (by norm_num)
    linarith
  have ht0 : 0 < tan (1 / 10) := tan_pos_of_pos_of_lt_pi_div_two h0 hlt
  have hx : 6 / 7 ≤ 6 / (6 + (i : ℝ)) := div_le_div_of_nonneg_left (by norm_num) (by linarith) (by linarith)
  nlinarith

private theorem draggedRotor_drives {d : ℝ} (hd0 : 0 ≤ d) (hd : d ≤ 1 / 2000) (az : ℝ) {R' : Rotor ℝ} {L : LoadsOut ℝ}
    (h : distributedAeroLoads someRoot (draggedRotor d) 6 (30 / π) 0 az = (R', .ok L)) {i : ℕ} {s : Station ℝ} (hs : L.stations[i]? = some s) :
    0 ≤ s.loads.Tp := by
  have hpi := pi_gt_three
  have hO : 30 / π ≠ 0 := by positivity
  have hi : i < 2 := (loads_station h hs).1
  have hre : FixedRe (draggedRotor d) i := .inr fun _ _ _ => rfl
  have G := draggedRotor_straight d
  have E := G.solvable rfl hi hre (draggedRotor_solvable hd0 hd hi) az
  obtain ⟨S, hge, -⟩ := attached_solved someRoot_crossing rfl hre hO E h hs
  obtain ⟨f1, f2, -⟩ := station_facts (R := draggedRotor d) rfl hre h hO hs (Vx := (rotorWind (draggedRotor d) 6 (30 / π) (az * (π / 180)) i).1)
    (Vy := (rotorWind (draggedRotor d) 6 (30 / π) (az * (π / 180)) i).2) rfl E.flow.front.ne' E.flow.sense.ne'
  rw [draggedRotor_polar] at f1 f2
  obtain ⟨a1, -, a3, -⟩ := distributedAeroLoads_forces _ _ _ _ _ _ _ L h i s hs
  have hs1 : 9 / 100 ≤ sin s.phi := sin_tenth.trans (sin_le_sin_of_le_of_le_pi_div_two (by linarith) S.angle.2.le hge)
  have hc1 := cos_le_one s.phi
  have hrho : 0 ≤ (draggedRotor d).rho := by norm_num [draggedRotor, Rotor.withAirfoils, chordRotor, annulusRotor, demoRotor]
  have hch := E.flow.chord
  rw [a3, a1, f1, f2]
  refine mul_nonneg (by positivity) ?_
  simp only
  have h3 : (9 / 100 : ℝ) ^ 3 ≤ sin s.phi ^ 3 := pow_le_pow_left₀ (by norm_num) hs1 3
  have h4 : d * cos s.phi ≤ d * 1 := mul_le_mul_of_nonneg_left hc1 hd0
  have h5 : sin s.phi ^ 2 * sin s.phi = sin s.phi ^ 3 := by ring
  rw [h5]
  norm_num at h3
  linarith

/-- The hypotheses of `evaluate_drag` are met: twice the drag raises thrust and blade root moment and lowers torque and power. -/
example : ∃ o o' x x', (evaluate someRoot (draggedRotor (1 / 4000)) [⟨6, 30 / π, 0⟩] false).2 = .ok o ∧
    (evaluate someRoot ((draggedRotor (1 / 4000)).withAirfoils (constantDrag (1 / 2000))) [⟨6, 30 / π, 0⟩] false).2 = .ok o' ∧ o.conds = [x] ∧
    o'.conds = [x'] ∧ x.acc.T.val < x'.acc.T.val ∧ x.acc.Mb.val < x'.acc.Mb.val ∧ x'.acc.Q.val < x.acc.Q.val ∧ x'.P.val < x.P.val := by
  have hpi := pi_gt_three
  have hO : 30 / π ≠ 0 := by positivity
  have total : ∀ d, ∃ o x, (evaluate someRoot (draggedRotor d) [⟨6, 30 / π, 0⟩] false).2 = .ok o ∧ o.conds = [x] := fun d => by
    obtain ⟨o, x, h1, h2, -⟩ := evaluate_total someRoot_onlyValueError (draggedRotor d) ⟨6, 30 / π, 0⟩ false
      (by simp [draggedRotor, Rotor.withAirfoils, chordRotor, annulusRotor, demoRotor]) rfl hO
      (by simp [draggedRotor, Rotor.withAirfoils, chordRotor, annulusRotor, demoRotor])
    exact ⟨o, x, h1, h2⟩
  obtain ⟨o, x, h1, h2⟩ := total (1 / 4000)
  obtain ⟨o', x', h1', h2'⟩ := total (1 / 2000)
  have e : (draggedRotor (1 / 4000)).withAirfoils (constantDrag (1 / 2000)) = draggedRotor (1 / 2000) := rfl
  obtain ⟨t, b, q⟩ := evaluate_drag someRoot someRoot_exact someRoot_crossing (draggedRotor (1 / 4000)) (constantDrag (1 / 2000)) _ o o' false h1 h1' 0
    ⟨6, 30 / π, 0⟩ x x' rfl (by rw [h2]; rfl) (by rw [h2']; rfl) (draggedRotor_straight _) rfl (fun _ _ => .inr fun _ _ _ => rfl)
    (fun _ _ => .inr fun _ _ _ => rfl) (by simp [draggedRotor, Rotor.withAirfoils, chordRotor, annulusRotor, demoRotor])
    (by norm_num [draggedRotor, Rotor.withAirfoils, chordRotor, annulusRotor, demoRotor]) rfl rfl (by positivity)
    (fun i _ => by
      rw [e]
      exact ⟨fun _ => by simp only [draggedRotor_polar], fun _ _ => by simp only [draggedRotor_polar]; norm_num⟩)
    (fun _ => 1 / 10) (fun _ => 1 / 10) (fun i hi => draggedRotor_solvable (by norm_num) (by norm_num) hi)
    (fun i hi => draggedRotor_solvable (by norm_num) (by norm_num) hi)
    (fun i _ => by
      rw [draggedRotor_polar]
      have := sin_tenth
      positivity)
  refine ⟨o, o', x, x', h1, h1', h2, h2', t, b, q (fun i _ => ?_) fun k _ L hL i s hs => ?_⟩
  · simp only [draggedRotor_polar]
    refine ⟨fun _ _ _ => ⟨by norm_num, le_rfl⟩, fun {p q} h0 hpq hq => mul_le_mul_of_nonneg_left ?_ (by norm_num)⟩
    exact pow_le_pow_left₀ (sin_nonneg_of_nonneg_of_le_pi h0.le (by linarith)) (sin_le_sin_of_le_of_le_pi_div_two (by linarith) hq hpq) 2
  · exact draggedRotor_drives (by norm_num) (by norm_num) _ (Prod.ext rfl hL) hs

end Verif
