import Verif.Props.Operating
import Verif.Props.SwirlPitch

/-!
# Thrust over the rotor speed (C125)

The momentum equation ties the thrust of an annulus to the force of the blades on it. In attached flow the inflow angle falls as the rotor turns faster. If
the normal force coefficient over `sin² φ` grows as the angle falls, so does the thrust.
-/

open Real Filter Topology

namespace Verif

/-! ## The section -/

/-- The normal force coefficient over `sin² φ` falls as the inflow angle grows. -/
def SteepForce (cl cd : ℝ → ℝ) : Prop :=
  ∀ {p q}, 0 < p → p < q → q < π / 2 → (cl q * cos q + cd q * sin q) / sin q ^ 2 < (cl p * cos p + cd p * sin p) / sin p ^ 2

section
variable {o : BemOpts} {B : ℕ} {r chord Rhub Rtip Vx Vy Vy' p q : ℝ} {cl cd : ℝ → ℝ}

/-- **C125** A section at two tangential inflows, solved at both and with lift: at the larger one the inflow angle is smaller. If the residual uses drag,
the force of the blades on the annulus is larger. Wake rotation may be on or off. -/
theorem section_faster (hB : 0 < B) (hRhub : 0 < Rhub) (h1 : Rhub < r) (h2 : r < Rtip) (hc : 0 < chord) (hVx : 0 < Vx) (hVy : 0 < Vy) (hVV : Vy < Vy')
    (ho : o.useCd = true) (hatt : AttachedFlow o B r Rhub Rtip cl cd) (hforce : SteepForce cl cd)
    (hp : p ∈ Set.Ioo 0 (π / 2)) (hroot : (inductionFactors r chord Rhub Rtip p (cl p) (cd p) B Vx Vy o).fzero = 0)
    (hreg : RegularK (lossSpec o B r Rhub Rtip p) (kSpec o B r chord Rhub Rtip p (cl p) (cd p)))
    (hq : q ∈ Set.Ioo 0 (π / 2)) (hroot' : (inductionFactors r chord Rhub Rtip q (cl q) (cd q) B Vx Vy' o).fzero = 0)
    (hreg' : RegularK (lossSpec o B r Rhub Rtip q) (kSpec o B r chord Rhub Rtip q (cl q) (cd q))) (hcl : 0 ≤ cl q) :
    let I := inductionFactors r chord Rhub Rtip p (cl p) (cd p) B Vx Vy o
    let J := inductionFactors r chord Rhub Rtip q (cl q) (cd q) B Vx Vy' o
    q < p ∧ relSpeed p I.a I.ap Vx Vy ^ 2 * (cl p * cos p + cd p * sin p) < relSpeed q J.a J.ap Vx Vy' ^ 2 * (cl q * cos q + cd q * sin q) := by
  intro I J
  have hr : 0 < r := hRhub.trans h1
  have hpi := pi_pos
  have hBr : (0 : ℝ) < B := by exact_mod_cast hB
  have hVy' : 0 < Vy' := hVy.trans hVV
  have hlt : q < p := inflow_rises hB hRhub h1 h2 hc hVx hVy' hVy (div_lt_div_of_pos_left hVx hVy hVV) hatt hq hroot' hreg' hcl ⟨hp.1, hp.2.le⟩ hroot hreg
  refine ⟨hlt, ?_⟩
  have l0 : 0 ≤ cl p := hcl.trans (hatt.lift hq.1 hlt.le hp.2.le)
  have d0 : 0 ≤ cd p := (hatt.drag ho hp.1 le_rfl hp.2.le).1
  have fp := (lossSpec_range o B hB r Rhub Rtip p hRhub h1 h2 hp.1 (by linarith [hp.2])).1
  have fq := lossSpec_range o B hB r Rhub Rtip q hRhub h1 h2 hq.1 (by linarith [hq.2])
  have kp := kSpec_nonneg (chord := chord) (cl := cl) (cd := cd) hRhub h1 hB h2 hc ho hp l0 d0
  have kq := kSpec_nonneg (chord := chord) (cl := cl) (cd := cd) hRhub h1 hB h2 hc ho hq hcl (hatt.drag ho hq.1 le_rfl hq.2.le).1
  have t1 := section_thrust_wake hB hRhub h1 h2 hVx hVy ho hp hroot hreg (one_pos.trans_le (one_le_wakeOf fp kp))
  have t2 := section_thrust_wake hB hRhub h1 h2 hVx hVy' ho hq hroot' hreg' (one_pos.trans_le (one_le_wakeOf fq.1 kq))
  have key := thrustOf_force fp (lossSpec_anti (o := o) hB hRhub h1 h2 hq.1 hlt.le hp.2.le) fq.2
    (k1 := kSpec o B r chord Rhub Rtip q (cl q) (cd q)) (k2 := kSpec o B r chord Rhub Rtip p (cl p) (cd p))
    kp
    (by
      rw [loss_force hRhub h1 hB h2 ho hp, loss_force hRhub h1 hB h2 ho hq]
      exact mul_lt_mul_of_pos_left (hforce hq.1 hlt hp.2) (by positivity))
  have hcmp := mul_lt_mul_of_pos_left key (show 0 < Vx ^ 2 * (2 * π * r) by positivity)
  rw [← t1, ← t2] at hcmp
  exact lt_of_mul_lt_mul_left hcmp (by positivity)

end

/-- **C125** Without the condition on the force coefficient the claim is false: a thin airfoil set at 45° has no lift where the wind meets the blade at
45°. At half the rotor speed it has, and the blades push on the annulus. -/
theorem section_faster_false : ∃ p ∈ Set.Ioo (π / 4) (π / 2),
    let o : BemOpts := ⟨true, false, false, false⟩
    let cl : ℝ → ℝ := fun x => sin (x - π / 4)
    let slow := inductionFactors 2 1 1 3 p (cl p) 0 3 1 (1 / 2) o
    let fast := inductionFactors 2 1 1 3 (π / 4) (cl (π / 4)) 0 3 1 1 o
    AttachedFlow o 3 2 1 3 cl (fun _ => 0) ∧ slow.fzero = 0 ∧ fast.fzero = 0 ∧ 0 ≤ cl (π / 4) ∧
      relSpeed (π / 4) fast.a fast.ap 1 1 ^ 2 * (cl (π / 4) * cos (π / 4)) < relSpeed p slow.a slow.ap 1 (1 / 2) ^ 2 * (cl p * cos p) := by
  have hpi := pi_gt_three
  have h4 : π / 4 ∈ Set.Ioo 0 (π / 2) := ⟨by linarith, by linarith⟩
  have hB : 0 < 3 := by norm_num
  have hh : (0 : ℝ) < 1 := one_pos
  have h12 : (1 : ℝ) < 2 := by norm_num
  have h23 : (2 : ℝ) < 3 := by norm_num
  have hF : ∀ x, lossSpec ⟨true, false, false, false⟩ 3 2 1 3 x = 1 := fun x => by simp [lossSpec]
  have hatt : AttachedFlow ⟨true, false, false, false⟩ 3 2 1 3 (fun x => sin (x - π / 4)) (fun _ => 0) :=
    attachedFlow_of_constant_drag hB hh h12 h23 (fun h0 h1 h2 => sin_le_sin_of_le_of_le_pi_div_two (by linarith) (by linarith) (by linarith))
      fun _ => ⟨0, le_rfl, fun _ _ _ => rfl⟩
  have zero : ∀ Vy : ℝ, 0 < Vy →
      ((inductionFactors 2 1 1 3 (π / 4) (sin (π / 4 - π / 4)) 0 3 1 Vy ⟨true, false, false, false⟩).fzero ≤ 0 ↔ tan (π / 4) ≤ 1 / Vy) := fun Vy hVy =>
    residual_zero_lift (cl := fun x => sin (x - π / 4)) (cd := fun _ => 0) hB hh h12 h23 hVy h4 (by simp) fun _ => rfl
  have reg : ∀ x ∈ Set.Ico (π / 4) (π / 2), RegularK (lossSpec ⟨true, false, false, false⟩ 3 2 1 3 x)
      (kSpec ⟨true, false, false, false⟩ 3 2 1 1 3 x (sin (x - π / 4)) 0) := fun x hx =>
    regular_of_lift (cl := fun x => sin (x - π / 4)) (cd := fun _ => 0) hB hh h12 h23 one_pos hatt (by linarith [hx.1]) hx.2.le
      (sin_nonneg_of_nonneg_of_le_pi (by linarith [hx.1]) (by linarith [hx.2])) (by rw [hF]; exact guardFree_lossless _)
  have r4 := reg (π / 4) ⟨le_rfl, by linarith⟩
  have fast : (inductionFactors 2 1 1 3 (π / 4) (sin (π / 4 - π / 4)) 0 3 1 1 ⟨true, false, false, false⟩).fzero = 0 := by
    have e := residual_side (Vx := 1) (Vy := 1) (chord := 1) (cl := fun x => sin (x - π / 4)) (cd := fun _ => 0) hB hh h12 h23 one_pos h4.1 h4.2 r4
    refine e.trans ?_
    have hS : sectionSide ⟨true, false, false, false⟩ 3 2 1 1 3 1 1 (fun x => sin (x - π / 4)) (fun _ => 0) (π / 4) = 1 := by
      simp [sectionSide, sectionWake, sectionSwirl, usedDrag, forceK, wakeOf]
      intro h
      norm_num at h
    rw [hS]
    norm_num
  obtain ⟨p, hp, hroot⟩ := attached_solution (cl := fun x => sin (x - π / 4)) (cd := fun _ => 0) (p := π / 4) hB hh h12 h23 one_pos one_pos
    (show (0 : ℝ) < 1 / 2 by norm_num) hatt h4 (by simp) (by fun_prop) (by fun_prop) (fun _ _ => by rw [hF]; exact guardFree_lossless _)
    ((zero (1 / 2) (by norm_num)).mpr (by rw [tan_pi_div_four]; norm_num))
  have hp0 : p ∈ Set.Ioo 0 (π / 2) := ⟨by linarith [hp.1], hp.2⟩
  have hlt : π / 4 < p := inflow_rises (cl := fun x => sin (x - π / 4)) (cd := fun _ => 0) hB hh h12 h23 one_pos one_pos one_pos
    (show (0 : ℝ) < 1 / 2 by norm_num) (by norm_num) hatt h4 fast r4 (by simp) ⟨hp0.1, hp.2.le⟩ hroot (reg p hp)
  refine ⟨p, ⟨hlt, hp.2⟩, hatt, hroot, fast, by simp, ?_⟩
  have hl : 0 < sin (p - π / 4) := sin_pos_of_pos_of_lt_pi (by linarith) (by linarith [hp.2])
  have hcp : 0 < cos p := cos_pos_of_mem_Ioo ⟨by linarith, hp.2⟩
  obtain ⟨t1, t2⟩ := section_speed (cl := fun x => sin (x - π / 4)) (cd := fun _ => 0) hB hh h12 h23 one_pos one_pos
    (show (0 : ℝ) < 1 / 2 by norm_num) hatt hp0 hroot (reg p hp) hl.le
  simp only [sub_self, sin_zero, zero_mul, mul_zero]
  refine mul_pos ?_ (mul_pos hl hcp)
  refine pos_of_mul_pos_left (b := cos p ^ 2) ?_ (by positivity)
  refine lt_of_lt_of_eq ?_ t2.symm
  positivity

/-! ## The station -/

/-- **C125** A station whose airfoil ignores the Reynolds number, solved with lift at two rotor speeds with the same axial inflow: at the higher one inflow
angle and angle of attack are smaller and the normal force is larger. -/
theorem station_faster {R : Rotor ℝ} {Uinf Omega Omega' pitch az : ℝ} {i : ℕ} (bq : RootFinder ℝ) (hbq : ExactRoots bq) (hinv : R.inv = none)
    (hre : (R.af i).ReIndependent) (hO : Omega ≠ 0) (hO' : Omega' ≠ 0) (hrho : 0 < R.rho) (hcd : R.opts.useCd = true)
    (hatt : AttachedStation R Uinf Omega pitch az i)
    (hforce : SteepForce (fun p => (stationPolar R Uinf Omega pitch az i p).1) fun p => (stationPolar R Uinf Omega pitch az i p).2)
    (hsame : (rotorWind R Uinf Omega' (az * (π / 180)) i).1 = (rotorWind R Uinf Omega (az * (π / 180)) i).1)
    (hfast : (rotorWind R Uinf Omega (az * (π / 180)) i).2 < (rotorWind R Uinf Omega' (az * (π / 180)) i).2) (R1 R2 : Rotor ℝ)
    (L L' : LoadsOut ℝ) (h : distributedAeroLoads bq R Uinf Omega pitch az = (R1, .ok L))
    (h' : distributedAeroLoads bq R Uinf Omega' pitch az = (R2, .ok L')) (s s' : Station ℝ) (hs : L.stations[i]? = some s)
    (hs' : L'.stations[i]? = some s') (S : SolvedWithLift R Uinf Omega pitch az i s) (S' : SolvedWithLift R Uinf Omega' pitch az i s') :
    s'.phi < s.phi ∧ s'.loads.alpha < s.loads.alpha ∧ s.loads.Np < s'.loads.Np := by
  have hpi := pi_gt_three
  obtain ⟨Vx, Vy, hV⟩ : ∃ Vx Vy, rotorWind R Uinf Omega (az * (π / 180)) i = (Vx, Vy) := ⟨_, _, rfl⟩
  obtain ⟨Vx', Vy', hV'⟩ : ∃ Vx Vy, rotorWind R Uinf Omega' (az * (π / 180)) i = (Vx, Vy) := ⟨_, _, rfl⟩
  have hVx := hatt.front
  have hVy := hatt.sense
  rw [hV, hV'] at hsame hfast
  rw [hV] at hVx hVy
  simp only at hsame hfast hVx hVy
  subst hsame
  have epol : stationPolar R Uinf Omega' pitch az i = stationPolar R Uinf Omega pitch az i := funext fun p => hre _ _ _
  obtain ⟨f1, f2, f3, f4⟩ := station_facts hinv (.inr hre) h hO hs hV hVx.ne' hVy.ne'
  obtain ⟨g1, g2, g3, g4⟩ := station_facts hinv (.inr hre) h' hO' hs' hV' hVx.ne' (hVy.trans hfast).ne'
  obtain ⟨z, -, -⟩ := exact_interval hbq h hO hs S.solved
  obtain ⟨z', -, -⟩ := exact_interval hbq h' hO' hs' S'.solved
  have r1 := S.regular
  have r2 := S'.regular
  have l2 := S'.lift
  rw [stationResidual_const hinv (.inr hre), hV] at z
  rw [stationResidual_const hinv (.inr hre), hV', epol] at z'
  unfold RegularAngle at r1 r2
  rw [epol] at g1 g2 g3 r2
  rw [g1] at l2
  obtain ⟨hlt, key⟩ := section_faster (cl := fun p => (stationPolar R Uinf Omega pitch az i p).1) (cd := fun p => (stationPolar R Uinf Omega pitch az i p).2)
    hatt.blades hatt.hub hatt.inner hatt.outer hatt.chord hVx hVy hfast hcd hatt.flow hforce S.angle z r1 S'.angle z' r2 l2
  obtain ⟨a1, a2, -⟩ := distributedAeroLoads_forces bq R R1 _ _ _ _ L h i s hs
  obtain ⟨b1, b2, -⟩ := distributedAeroLoads_forces bq R R2 _ _ _ _ L' h' i s' hs'
  refine ⟨hlt, ?_, ?_⟩
  · have : s'.loads.alpha * (π / 180) < s.loads.alpha * (π / 180) := by rw [f4, g4]; linarith
    exact lt_of_mul_lt_mul_right this (by positivity)
  · rw [← f3, ← g3] at key
    rw [a2, b2, a1, b1, f1, f2, g1, g2]
    have hch := hatt.chord
    have h4 := mul_lt_mul_of_pos_left key (show 0 < R.rho / 2 * R.chord i by positivity)
    refine lt_of_eq_of_lt ?_ (lt_of_lt_of_eq h4 ?_) <;> ring

/-! ## The rotor -/

theorem Solvable.slower {R : Rotor ℝ} (G : StraightRotor R) (hinv : R.inv = none) {Uinf Omega Omega' pitch : ℝ} {i : ℕ} (hi : i < R.n)
    (hre : (R.af i).ReIndependent) {phi0 : ℝ} (D : Solvable R Uinf Omega' pitch 0 i phi0) (hO : 0 < Omega) (hOO : Omega ≤ Omega') (az : ℝ) :
    Solvable R Uinf Omega pitch az i phi0 := by
  have hpi := pi_pos
  have hV := fun W a => G.wind Uinf W a hi
  have hr := G.range hi
  have hri : 0 < R.r i := G.hub.trans hr.1
  have hcos := G.cos_pos
  have hf := D.flow.front
  have hs := D.flow.sense
  rw [hV] at hf hs
  simp only at hf hs
  refine D.more_wind hinv hre (by rw [hV]; exact hf) (by rw [hV]; positivity) ?_
  rw [hV, hV]
  simp only
  refine div_le_div_of_nonneg_left hf.le (by positivity) ?_
  gcongr

/-- **C125** Two conditions of one call of `evaluate` that differ in the rotor speed only: a straight rotor in axial wind whose residual uses drag,
airfoils that ignore the Reynolds number, every station solvable at the higher speed.  Thrust and blade root moment are larger there. -/
theorem evaluate_faster (bq : RootFinder ℝ) (hbq : ExactRoots bq) (hbc : FindsCrossing bq) (R : Rotor ℝ) (cs : List (Cond ℝ)) (o : EvalOut ℝ)
    (co : Bool) (h : (evaluate bq R cs co).2 = .ok o) (m m' : ℕ) (c c' : Cond ℝ) (x x' : CondOut ℝ) (hc : cs[m]? = some c) (hx : o.conds[m]? = some x)
    (hc' : cs[m']? = some c') (hx' : o.conds[m']? = some x') (G : StraightRotor R) (hinv : R.inv = none)
    (hre : ∀ i < R.n, (R.af i).ReIndependent) (hns : 0 < R.nSector) (hrho : 0 < R.rho) (hcd : R.opts.useCd = true)
    (hUU : c'.Uinf = c.Uinf) (hpp : c'.pitch = c.pitch) (hO : 0 < c.Omega) (hOO : c.Omega < c'.Omega)
    (hforce : ∀ i < R.n, SteepForce (fun p => (pitchedPolar R c.pitch i p).1) fun p => (pitchedPolar R c.pitch i p).2) (phi0 : ℕ → ℝ)
    (D : ∀ i < R.n, Solvable R c.Uinf c'.Omega c.pitch 0 i (phi0 i)) :
    x.acc.T.val < x'.acc.T.val ∧ x.acc.Mb.val < x'.acc.Mb.val := by
  obtain ⟨L, hL, hT, -, hM, -⟩ := sector_averages h hc hx
  obtain ⟨L', hL', hT', -, hM', -⟩ := sector_averages h hc' hx'
  rw [hUU, hpp] at hL'
  have hpi := pi_pos
  have hcos := G.cos_pos
  have hn := G.n
  have hB : 0 < R.B := (D 0 (by omega)).flow.blades
  have hBr : (0 : ℝ) < R.B := by exact_mod_cast hB
  have hO' : 0 < c'.Omega := hO.trans hOO
  have key : ∀ k < R.nSector, ∀ i < R.n, stationArr (L k).stations SecLoads.Np i < stationArr (L' k).stations SecLoads.Np i := by
    intro k hk i hi
    obtain ⟨R1, e1⟩ : ∃ R', distributedAeroLoads bq R c.Uinf c.Omega c.pitch (k * (360 / R.nSector)) = (R', .ok (L k)) :=
      ⟨_, Prod.ext rfl (hL k hk)⟩
    obtain ⟨R2, e2⟩ : ∃ R', distributedAeroLoads bq R c.Uinf c'.Omega c.pitch (k * (360 / R.nSector)) = (R', .ok (L' k)) :=
      ⟨_, Prod.ext rfl (hL' k hk)⟩
    obtain ⟨s, hs⟩ : ∃ s, (L k).stations[i]? = some s :=
      ⟨_, List.getElem?_eq_getElem (by rw [(solveStations_ok (distributedAeroLoads_stations e1)).1]; exact hi)⟩
    obtain ⟨s', hs'⟩ : ∃ s, (L' k).stations[i]? = some s :=
      ⟨_, List.getElem?_eq_getElem (by rw [(solveStations_ok (distributedAeroLoads_stations e2)).1]; exact hi)⟩
    have E := (D i hi).slower G hinv hi (hre i hi) hO hOO.le (k * (360 / R.nSector))
    have E' := (D i hi).slower G hinv hi (hre i hi) hO' le_rfl (k * (360 / R.nSector))
    have hri : 0 < R.r i := G.hub.trans (G.range hi).1
    have hV := fun W => G.wind c.Uinf W (k * (360 / R.nSector) * (π / 180)) hi
    have epol := stationPolar_pitched (hre i hi) c.Uinf c.Omega c.pitch (k * (360 / R.nSector))
    obtain ⟨-, -, n⟩ := station_faster bq hbq hinv (hre i hi) hO.ne' hO'.ne' hrho hcd E.flow (by rw [epol]; exact hforce i hi)
      (by rw [hV, hV]) (by rw [hV, hV]; simp only; gcongr) R1 R2 _ _ e1 e2 s s' hs hs'
      (attached_solved hbc hinv (.inr (hre i hi)) hO.ne' E e1 hs).1 (attached_solved hbc hinv (.inr (hre i hi)) hO'.ne' E' e2 hs').1
    simpa [stationArr, hs, hs'] using n
  constructor
  · rw [hT, hT']
    refine mul_lt_mul_of_pos_left (mean_lt hns fun k hk => ?_) hBr
    simp only
    rw [(G.blade_integrals (L k)).1, (G.blade_integrals (L' k)).1]
    exact G.integral_lt fun i hi => mul_lt_mul_of_pos_right (key k hk i hi) hcos
  · rw [hM, hM']
    refine mean_lt hns fun k hk => ?_
    simp only
    rw [(G.blade_integrals (L k)).2.2, (G.blade_integrals (L' k)).2.2]
    exact G.integral_lt fun i hi => mul_lt_mul_of_pos_right (key k hk i hi) (mul_pos (G.hub.trans (G.range hi).1) hcos)

/-- **C125** The curves over the rotor speed at fixed wind and pitch: up to a speed at which every station is solvable, thrust and blade root moment are
continuous and strictly increasing functions of the rotor speed. -/
theorem rotor_speed_curve (bq : RootFinder ℝ) (hbq : ExactRoots bq) (hbc : FindsCrossing bq) (hbe : OnlyValueError bq) (R : Rotor ℝ) (G : StraightRotor R)
    (hinv : R.inv = none) (hd : R.derivatives = false) (hit : R.iterRe ≠ 0) (hre : ∀ i < R.n, (R.af i).ReIndependent)
    (hcont : ∀ i < R.n, Continuous fun z : ℝ × ℝ => (R.af i).evaluate z.1 z.2) (hns : 0 < R.nSector) (hrho : 0 < R.rho) (hmu : R.mu ≠ 0)
    (hcd : R.opts.useCd = true)
    (hz : ∀ k < R.nSector, ∀ i < R.n, AboveGround R (k * (360 / R.nSector) * (π / 180)) i) {Uinf top pitch : ℝ}
    (hforce : ∀ i < R.n, SteepForce (fun p => (pitchedPolar R pitch i p).1) fun p => (pitchedPolar R pitch i p).2) (phi0 : ℕ → ℝ)
    (D : ∀ i < R.n, Solvable R Uinf top pitch 0 i (phi0 i)) :
    ∃ T M : ℝ → ℝ, (∀ Omega, Omega ≠ 0 → ∃ o x, (evaluate bq R [⟨Uinf, Omega, pitch⟩] false).2 = .ok o ∧ o.conds = [x] ∧ x.acc.T.val = T Omega ∧
        x.acc.Mb.val = M Omega) ∧
      ∀ f ∈ [T, M], ContinuousOn f (Set.Ioc 0 top) ∧ StrictMonoOn f (Set.Ioc 0 top) := by
  classical
  have tot : ∀ Omega : ℝ, ∃ o x, Omega ≠ 0 → (evaluate bq R [⟨Uinf, Omega, pitch⟩] false).2 = .ok o ∧ o.conds = [x] := fun Omega => by
    by_cases hO : Omega = 0
    · obtain ⟨o, x, -⟩ := evaluate_total hbe R ⟨Uinf, 1, pitch⟩ false hit hd one_ne_zero hns.ne'
      exact ⟨o, x, fun h => absurd hO h⟩
    · obtain ⟨o, x, h1, h2, -⟩ := evaluate_total hbe R ⟨Uinf, Omega, pitch⟩ false hit hd hO hns.ne'
      exact ⟨o, x, fun _ => ⟨h1, h2⟩⟩
  choose o x hox using tot
  have ho := fun Omega h => (hox Omega h).1
  have hx := fun Omega h => (hox Omega h).2
  have nz : ∀ V : Set.Ioc (0 : ℝ) top, (V : ℝ) ≠ 0 := fun V => V.2.1.ne'
  have op : ∀ {W : ℝ}, W ∈ Set.Ioc 0 top → AttachedOperation bq R ⟨Uinf, W, pitch⟩ := fun {W} hW =>
    attached_operation hbc R _ hW.1.ne' hinv (fun i hi => .inr (hre i hi)) (fun _ i => phi0 i) fun k _ i hi =>
      (D i hi).slower G hinv hi (hre i hi) hW.1 hW.2 _
  have cont := fun V0 : Set.Ioc (0 : ℝ) top => attached_rotor_limit (l := 𝓝 V0) (R := fun _ : Set.Ioc (0 : ℝ) top => R) (R0 := R) hbq
    (RotorTends.const _ hcont) hmu hz
    (c := fun V => ⟨Uinf, V, pitch⟩) (c0 := ⟨Uinf, V0, pitch⟩) tendsto_const_nhds continuous_subtype_val.continuousAt tendsto_const_nhds
    (fun V => op V.2) (op V0.2) (fun V => ho V (nz V)) (m := fun _ => 0) (fun _ => rfl) (x := fun V => x V) (fun V => by rw [hx V (nz V)]; rfl)
    (ho V0 (nz V0)) (m0 := 0) rfl (x0 := x V0) (by rw [hx V0 (nz V0)]; rfl)
  have rise : ∀ {p p' : ℝ}, p ∈ Set.Ioc 0 top → p' ∈ Set.Ioc 0 top → p < p' → (x p).acc.T.val < (x p').acc.T.val ∧
      (x p).acc.Mb.val < (x p').acc.Mb.val := by
    intro p p' h1 h1' h2
    obtain ⟨O, hO2⟩ := evaluate_conditions_ok bq R [⟨Uinf, p, pitch⟩, ⟨Uinf, p', pitch⟩] false (by simp) fun c hc => by
      simp only [List.mem_cons, List.not_mem_nil, or_false] at hc
      rcases hc with rfl | rfl
      · exact ⟨_, ho p h1.1.ne'⟩
      · exact ⟨_, ho p' h1'.1.ne'⟩
    have F := evaluate_conditions bq R _ false O hO2
    obtain ⟨y, y', hy⟩ := List.length_eq_two.mp (evaluate_length hO2)
    rw [hy] at F
    simp only [List.forall₂_cons, List.Forall₂.nil, and_true] at F
    obtain ⟨⟨o1, e1, e2⟩, o2, e3, e4⟩ := F
    rw [ho p h1.1.ne', Except.ok.injEq] at e1
    rw [ho p' h1'.1.ne', Except.ok.injEq] at e3
    subst e1 e3
    rw [hx _ h1.1.ne', List.cons.injEq] at e2
    rw [hx _ h1'.1.ne', List.cons.injEq] at e4
    rw [e2.1, e4.1]
    exact evaluate_faster bq hbq hbc R _ O false hO2 0 1 ⟨Uinf, p, pitch⟩ ⟨Uinf, p', pitch⟩ y y' rfl (by rw [hy]; rfl) rfl (by rw [hy]; rfl) G hinv hre hns hrho
      hcd rfl rfl h1.1 h2 hforce phi0 fun i hi => (D i hi).slower G hinv hi (hre i hi) h1'.1 h1'.2 0
  have con : ∀ {f : ℝ → ℝ}, (∀ V0 : Set.Ioc (0 : ℝ) top, Tendsto (fun V : Set.Ioc (0 : ℝ) top => f V) (𝓝 V0) (𝓝 (f V0))) →
      ContinuousOn f (Set.Ioc 0 top) := fun h => by
    rw [continuousOn_iff_continuous_domRestrict, continuous_iff_continuousAt]
    exact h
  refine ⟨fun p => (x p).acc.T.val, fun p => (x p).acc.Mb.val, fun p hp => ⟨o p, x p, ho p hp, hx p hp, rfl, rfl⟩, fun f hf => ?_⟩
  simp only [List.mem_cons, List.not_mem_nil, or_false] at hf
  rcases hf with rfl | rfl
  · exact ⟨con fun V => (cont V).1, fun p h p' h' hp => (rise h h' hp).1⟩
  · exact ⟨con fun V => (cont V).2.2.2.2.2.2.1, fun p h p' h' hp => (rise h h' hp).2⟩

/-! ## An example -/

private theorem featherRotor_steep (i : ℕ) :
    SteepForce (fun p => (pitchedPolar featherRotor 0 i p).1) fun p => (pitchedPolar featherRotor 0 i p).2 := by
  have e : ∀ p, pitchedPolar featherRotor 0 i p = (1 + sin p, 0) := fun p => by simp [pitchedPolar, featherRotor, annulusRotor]
  have hpi := pi_pos
  intro p q hp hpq hq
  simp only [e, zero_mul, add_zero]
  have sp : 0 < sin p := sin_pos_of_pos_of_lt_pi hp (by linarith)
  have cq : 0 < cos q := cos_pos_of_mem_Ioo ⟨by linarith, hq⟩
  have spq : sin p < sin q := sin_lt_sin_of_lt_of_le_pi_div_two (by linarith) hq.le hpq
  have cpq : cos q < cos p := cos_lt_cos_of_nonneg_of_le_pi_div_two hp.le hq.le hpq
  have sq0 : 0 < sin q := sp.trans spq
  have split : ∀ z, 0 < sin z → (1 + sin z) * cos z / sin z ^ 2 = cos z / sin z ^ 2 + cos z / sin z := fun z hz => by field_simp
  rw [split _ sp, split _ sq0]
  have h1 : cos q / sin q < cos p / sin p := div_lt_div₀ cpq spq.le (cq.trans cpq).le sp
  have h2 : cos q / sin q ^ 2 < cos p / sin p ^ 2 :=
    div_lt_div₀ cpq (pow_le_pow_left₀ sp.le spq.le 2) (cq.trans cpq).le (by positivity)
  linarith

private theorem featherRotor_above : ∀ k < featherRotor.nSector, ∀ i < featherRotor.n,
    AboveGround featherRotor (k * (360 / featherRotor.nSector) * (π / 180)) i := by
  intro k _ i hi
  have h1 : (i : ℝ) ≤ 1 := by exact_mod_cast Nat.lt_succ_iff.mp (show i < 2 from hi)
  have h0 : (0 : ℝ) ≤ i := by positivity
  set z := (k : ℝ) * (360 / featherRotor.nSector) * (π / 180)
  have c2 := neg_one_le_cos z
  have c1 := cos_le_one z
  refine ⟨by norm_num [featherRotor, annulusRotor, demoRotor], ?_⟩
  simp only [relHeight, featherRotor, annulusRotor, demoRotor, cos_zero, sin_zero]
  rw [show 1 + ((0 * sin z + ((6 + (i : ℝ)) * 1 + 0 * 0) * cos z) * 1 - (0 * 1 - (6 + (i : ℝ)) * 0) * 0) / 90
    = (90 + (6 + (i : ℝ)) * cos z) / 90 by ring]
  refine div_pos ?_ (by norm_num)
  nlinarith

/-- The hypotheses of `rotor_speed_curve` are met: the thrust of `featherRotor` at 6 m/s rises continuously with the rotor speed up to 30/π rpm. -/
example : ∃ T : ℝ → ℝ, ContinuousOn T (Set.Ioc 0 (30 / π)) ∧ StrictMonoOn T (Set.Ioc 0 (30 / π)) ∧
    ∀ Omega, Omega ≠ 0 → ∃ o x, (evaluate someRoot featherRotor [⟨6, Omega, 0⟩] false).2 = .ok o ∧ o.conds = [x] ∧ x.acc.T.val = T Omega := by
  obtain ⟨T, M, h1, h2⟩ := rotor_speed_curve someRoot someRoot_exact someRoot_crossing someRoot_onlyValueError featherRotor featherRotor_straight rfl rfl
    (by simp [featherRotor, annulusRotor, demoRotor]) (fun _ _ _ _ _ => rfl) (fun i _ => by simp only [featherRotor, annulusRotor]; fun_prop)
    (by simp [featherRotor, annulusRotor, demoRotor]) (by norm_num [featherRotor, annulusRotor, demoRotor])
    (by norm_num [featherRotor, annulusRotor, demoRotor]) rfl featherRotor_above (Uinf := 6) (fun i _ => featherRotor_steep i)
    (fun _ => 1 / 1000000) fun _ hi => featherRotor_solvable ⟨le_rfl, by norm_num⟩ hi
  exact ⟨T, (h2 T (by simp)).1, (h2 T (by simp)).2, fun W hW => by
    obtain ⟨o, x, a, b, c, -⟩ := h1 W hW
    exact ⟨o, x, a, b, c⟩⟩

/-- The same with wake rotation. -/
example : ∃ T : ℝ → ℝ, ContinuousOn T (Set.Ioc 0 (30 / π)) ∧ StrictMonoOn T (Set.Ioc 0 (30 / π)) ∧ (swirlRotor 1).opts.wakeRot = true ∧
    ∀ Omega, Omega ≠ 0 → ∃ o x, (evaluate someRoot (swirlRotor 1) [⟨6, Omega, 0⟩] false).2 = .ok o ∧ o.conds = [x] ∧ x.acc.T.val = T Omega := by
  obtain ⟨T, M, h1, h2⟩ := rotor_speed_curve someRoot someRoot_exact someRoot_crossing someRoot_onlyValueError (swirlRotor 1) (swirlRotor_straight 1) rfl rfl
    (by simp [swirlRotor, featherRotor, annulusRotor, demoRotor]) (fun _ _ _ _ _ => rfl)
    (fun i _ => by simp only [swirlRotor, featherRotor, annulusRotor]; fun_prop)
    (by simp [swirlRotor, featherRotor, annulusRotor, demoRotor]) (by norm_num [swirlRotor, featherRotor, annulusRotor, demoRotor])
    (by norm_num [swirlRotor, featherRotor, annulusRotor, demoRotor]) rfl featherRotor_above (Uinf := 6) (fun i _ => featherRotor_steep i)
    (fun _ => 1 / 1000000) fun _ hi => swirlRotor_solvable one_pos (by norm_num) ⟨le_rfl, by norm_num⟩ hi
  exact ⟨T, (h2 T (by simp)).1, (h2 T (by simp)).2, rfl, fun W hW => by
    obtain ⟨o, x, a, b, c, -⟩ := h1 W hW
    exact ⟨o, x, a, b, c⟩⟩

end Verif
