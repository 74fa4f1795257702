import Verif.Props.Losses
import Verif.Props.PitchCurve

/-!
# Adding blades (C126)

One more blade raises the solidity, and with losses on it raises the loss factor. The inflow angle may move either way. If it falls, the flow through the disc
is slower and the thrust of the annulus larger. If it does not, every blade is loaded at least as much as before and there are more of them.
-/

open Real

namespace Verif

/-- The rotor with another number of blades. -/
def Rotor.withBlades {α : Type} (R : Rotor α) (B' : ℕ) : Rotor α := { R with B := B' }

/-! ## The section -/

section
variable {o : BemOpts} {B B' : ℕ} {r chord Rhub Rtip Vx Vy : ℝ} {cl cd : ℝ → ℝ} {p q : ℝ}

private theorem prandtl_blades {d R : ℝ} (hBB : B ≤ B') (hd : 0 < d) (hR : 0 < R) (hp : 0 < p) (hp2 : p ≤ π / 2) :
    prandtl B d R p ≤ prandtl B' d R p := by
  have hpi := pi_pos
  have hs : 0 < sin p := sin_pos_of_pos_of_lt_pi hp (by linarith)
  have hBr : (B : ℝ) ≤ B' := by exact_mod_cast hBB
  unfold prandtl
  refine mul_le_mul_of_nonneg_left (arccos_le_arccos (exp_le_exp.mpr (neg_le_neg ?_))) (by positivity)
  gcongr

/-- More blades, less loss. -/
theorem lossSpec_blades (hB : 0 < B) (hBB : B ≤ B') (hRhub : 0 < Rhub) (h1 : Rhub < r) (h2 : r < Rtip) (hp : 0 < p) (hp2 : p ≤ π / 2) :
    lossSpec o B r Rhub Rtip p ≤ lossSpec o B' r Rhub Rtip p := by
  have hr : 0 < r := hRhub.trans h1
  have t := prandtl_blades hBB (sub_pos.mpr h2) hr hp hp2
  have u := prandtl_blades hBB (sub_pos.mpr h1) hRhub hp hp2
  have a := prandtl_factor_pos (B := B') (hB.trans_le hBB) (sub_pos.mpr h2) hr hp hp2
  have b := prandtl_factor_pos (B := B) hB (sub_pos.mpr h1) hRhub hp hp2
  unfold lossSpec
  split_ifs <;> try simp only [one_mul, mul_one]
  all_goals first | exact le_rfl | assumption | exact mul_le_mul t u b.le a.le

/-- **C126** A section on a rotor with fewer and on one with more blades, solved on both, with lift, drag in the residual and wake rotation off: the
blades together push harder on the annulus if there are more of them. -/
theorem section_blades (hB : 0 < B) (hBB : B < B') (hRhub : 0 < Rhub) (h1 : Rhub < r) (h2 : r < Rtip) (hc : 0 < chord) (hVx : 0 < Vx) (hVy : 0 < Vy)
    (ho : o.useCd = true) (hw : o.wakeRot = false) (hatt : AttachedFlow o B r Rhub Rtip cl cd) (hp : p ∈ Set.Ioo 0 (π / 2))
    (hroot : (inductionFactors r chord Rhub Rtip p (cl p) (cd p) B Vx Vy o).fzero = 0)
    (hreg : RegularK (lossSpec o B r Rhub Rtip p) (kSpec o B r chord Rhub Rtip p (cl p) (cd p))) (hcl : 0 < cl p)
    (hq : q ∈ Set.Ioo 0 (π / 2)) (hroot' : (inductionFactors r chord Rhub Rtip q (cl q) (cd q) B' Vx Vy o).fzero = 0)
    (hreg' : RegularK (lossSpec o B' r Rhub Rtip q) (kSpec o B' r chord Rhub Rtip q (cl q) (cd q))) (hcl' : 0 ≤ cl q) :
    let I := inductionFactors r chord Rhub Rtip p (cl p) (cd p) B Vx Vy o
    let J := inductionFactors r chord Rhub Rtip q (cl q) (cd q) B' Vx Vy o
    B * (relSpeed p I.a I.ap Vx Vy ^ 2 * (cl p * cos p + cd p * sin p)) < B' * (relSpeed q J.a J.ap Vx Vy ^ 2 * (cl q * cos q + cd q * sin q)) := by
  intro I J
  have hr : 0 < r := hRhub.trans h1
  have hpi := pi_pos
  have hB' : 0 < B' := hB.trans hBB
  have hBr : (0 : ℝ) < B := by exact_mod_cast hB
  have hBBr : (B : ℝ) < B' := by exact_mod_cast hBB
  have hatt' : AttachedFlow o B' r Rhub Rtip cl cd := ⟨hatt.lift, hatt.drag, fun _ h => absurd h (by rw [hw]; simp)⟩
  rcases lt_or_ge q p with hlt | hle
  · -- the flow through the disc is slower
    have t1 := section_thrust hB hRhub h1 h2 hVx hVy ho hw hp hroot hreg
    have t2 := section_thrust hB' hRhub h1 h2 hVx hVy ho hw hq hroot' hreg'
    have hd : 0 ≤ usedDrag o cd q := by
      unfold usedDrag
      rw [if_pos ho]
      exact (hatt.drag ho hq.1 le_rfl hq.2.le).1
    have hslow := section_slowed hB' hRhub h1 h2 hc hVx hVy hw hq hroot' hreg' hcl' hd
    have htan : tan q < tan p := tan_lt_tan_of_nonneg_of_lt_pi_div_two hq.1.le hp.2 hlt
    have htan0 : 0 < tan q := tan_pos_of_pos_of_lt_pi_div_two hq.1 hq.2
    have key := thrustOf_lt (lossSpec_range o B hB r Rhub Rtip p hRhub h1 h2 hp.1 (by linarith [hp.2])).1
      ((lossSpec_anti (o := o) hB hRhub h1 h2 hq.1 hlt.le hp.2.le).trans (lossSpec_blades hB hBB.le hRhub h1 h2 hq.1 hq.2.le))
      (lossSpec_range o B' hB' r Rhub Rtip q hRhub h1 h2 hq.1 (by linarith [hq.2])).2
      (u1 := tan q * (Vy / Vx)) (u2 := tan p * (Vy / Vx)) (by positivity) (mul_lt_mul_of_pos_right htan (by positivity)) hslow
    have hcmp := mul_lt_mul_of_pos_left key (show 0 < Vx ^ 2 * (2 * π * r) by positivity)
    rw [← t1, ← t2] at hcmp
    refine lt_of_mul_lt_mul_left ?_ hc.le
    refine lt_of_eq_of_lt ?_ (lt_of_lt_of_eq hcmp ?_) <;> ring
  · -- no blade is loaded less than before
    obtain ⟨-, t⟩ := section_speed hB hRhub h1 h2 hc hVx hVy hatt hp hroot hreg hcl.le
    obtain ⟨-, t'⟩ := section_speed hB' hRhub h1 h2 hc hVx hVy hatt' hq hroot' hreg' hcl'
    have s0 : sectionSwirl o B r chord Rhub Rtip cl cd p = 0 := by simp [sectionSwirl, hw]
    have s0' : sectionSwirl o B' r chord Rhub Rtip cl cd q = 0 := by simp [sectionSwirl, hw]
    rw [s0, sub_zero, div_one] at t
    rw [s0', sub_zero, div_one] at t'
    have hcp : 0 < cos p := cos_pos_of_mem_Ioo ⟨by linarith [hp.1], hp.2⟩
    have hsp : 0 < sin p := sin_pos_of_pos_of_lt_pi hp.1 (by linarith [hp.2])
    have d0 := (hatt.drag ho hp.1 le_rfl hp.2.le).1
    have hW : 0 < relSpeed p I.a I.ap Vx Vy ^ 2 := by
      refine pos_of_mul_pos_left (b := cos p ^ 2) ?_ (by positivity)
      refine lt_of_lt_of_eq ?_ t.symm
      positivity
    have hf : 0 < relSpeed p I.a I.ap Vx Vy ^ 2 * (cl p * cos p + cd p * sin p) :=
      mul_pos hW (add_pos_of_pos_of_nonneg (mul_pos hcl hcp) (mul_nonneg d0 hsp.le))
    have hmono : relSpeed p I.a I.ap Vx Vy ^ 2 * (cl p * cos p + cd p * sin p) ≤ relSpeed q J.a J.ap Vx Vy ^ 2 * (cl q * cos q + cd q * sin q) := by
      rcases hle.eq_or_lt with heq | hlt
      · have hWW : relSpeed p I.a I.ap Vx Vy ^ 2 = relSpeed q J.a J.ap Vx Vy ^ 2 := by
          have t3 := t.trans t'.symm
          have hcc : cos q ^ 2 = cos p ^ 2 := by rw [heq]
          rw [hcc] at t3
          exact mul_right_cancel₀ (by positivity) t3
        rw [hWW, heq]
      · exact (forces_rise hp.1 hlt hq.2 (by positivity) le_rfl t t' hcl (hatt.lift hp.1 hlt.le hq.2.le) d0 (hatt.drag ho hp.1 hlt.le hq.2.le).2).1.le
    exact mul_lt_mul hBBr hmono hf (hBr.trans hBBr).le

end

/-! ## The station -/

/-- **C126** A station on two rotors that differ in the number of blades only, solved on both with lift: the normal force of all blades together is
larger on the rotor with more of them. -/
theorem station_blades {R : Rotor ℝ} {B' : ℕ} {Uinf Omega pitch az : ℝ} {i : ℕ} (bq : RootFinder ℝ) (hbq : ExactRoots bq) (hinv : R.inv = none)
    (hre : FixedRe R i) (hO : Omega ≠ 0) (hrho : 0 < R.rho) (hcd : R.opts.useCd = true) (hwr : R.opts.wakeRot = false) (hBB : R.B < B')
    (hatt : AttachedStation R Uinf Omega pitch az i) (R1 R2 : Rotor ℝ) (L L' : LoadsOut ℝ)
    (h : distributedAeroLoads bq R Uinf Omega pitch az = (R1, .ok L)) (h' : distributedAeroLoads bq (R.withBlades B') Uinf Omega pitch az = (R2, .ok L'))
    (s s' : Station ℝ) (hs : L.stations[i]? = some s) (hs' : L'.stations[i]? = some s') (S : SolvedWithLift R Uinf Omega pitch az i s)
    (S' : SolvedWithLift (R.withBlades B') Uinf Omega pitch az i s') (hcl : 0 < s.loads.cl) :
    R.B * s.loads.Np < B' * s'.loads.Np := by
  have hpi := pi_gt_three
  obtain ⟨Vx, Vy, hV⟩ : ∃ Vx Vy, rotorWind R Uinf Omega (az * (π / 180)) i = (Vx, Vy) := ⟨_, _, rfl⟩
  have hV' : rotorWind (R.withBlades B') Uinf Omega (az * (π / 180)) i = (Vx, Vy) := hV
  obtain ⟨hB, hRhub, h1, h2, hc, hVx, hVy, hflow⟩ := hatt
  rw [hV] at hVx hVy
  simp only at hVx hVy
  obtain ⟨f1, f2, f3, -⟩ := station_facts hinv hre h hO hs hV hVx.ne' hVy.ne'
  obtain ⟨g1, g2, g3, -⟩ := station_facts (R := R.withBlades B') hinv hre h' hO hs' hV' hVx.ne' hVy.ne'
  have e := stationResidual_const (Uinf := Uinf) (Omega := Omega) (pitch := pitch) (az := az) hinv hre
  have e' := stationResidual_const (R := R.withBlades B') (Uinf := Uinf) (Omega := Omega) (pitch := pitch) (az := az) hinv hre
  have hpol : stationPolar (R.withBlades B') Uinf Omega pitch az i = stationPolar R Uinf Omega pitch az i := rfl
  rw [hV] at e
  rw [hV', hpol] at e'
  rw [hpol] at g1 g2 g3
  have r1 := S.regular
  have r2 := S'.regular
  have l2 := S'.lift
  unfold RegularAngle at r1 r2
  rw [hpol] at r2
  obtain ⟨z, -, -⟩ := exact_interval hbq h hO hs S.solved
  obtain ⟨z', -, -⟩ := exact_interval (R := R.withBlades B') hbq h' hO hs' S'.solved
  rw [e] at z
  rw [e'] at z'
  rw [f1] at hcl
  rw [g1] at l2
  have key := section_blades (cl := fun p => (stationPolar R Uinf Omega pitch az i p).1) (cd := fun p => (stationPolar R Uinf Omega pitch az i p).2)
    hB hBB hRhub h1 h2 hc hVx hVy hcd hwr hflow S.angle z r1 hcl S'.angle z' r2 l2
  obtain ⟨a1, a2, -⟩ := distributedAeroLoads_forces bq R R1 _ _ _ _ L h i s hs
  obtain ⟨b1, b2, -⟩ := distributedAeroLoads_forces bq _ R2 _ _ _ _ L' h' i s' hs'
  have hch : (R.withBlades B').chord i = R.chord i := rfl
  have hrho' : (R.withBlades B').rho = R.rho := rfl
  rw [hch] at b2
  rw [hrho'] at b1
  rw [a2, b2, a1, b1, f1, f2, g1, g2]
  have h4 := mul_lt_mul_of_pos_left key (show 0 < R.rho / 2 * R.chord i by positivity)
  rw [← f3] at h4
  have g3' : s'.loads.W = relSpeed s'.phi (inductionFactors (R.r i) (R.chord i) R.Rhub R.Rtip s'.phi (stationPolar R Uinf Omega pitch az i s'.phi).1
      (stationPolar R Uinf Omega pitch az i s'.phi).2 B' Vx Vy R.opts).a (inductionFactors (R.r i) (R.chord i) R.Rhub R.Rtip s'.phi
      (stationPolar R Uinf Omega pitch az i s'.phi).1 (stationPolar R Uinf Omega pitch az i s'.phi).2 B' Vx Vy R.opts).ap Vx Vy := g3
  rw [← g3'] at h4
  refine lt_of_eq_of_lt ?_ (lt_of_lt_of_eq h4 ?_) <;> ring

/-! ## The rotor -/

private theorem trapz_scale (n : ℕ) (b : ℝ) (m : ℕ) (f S : ℕ → ℝ) : b * trapz n (padded m 0 f 0) S = trapz n (padded m 0 (fun i => b * f i) 0) S := by
  simp only [trapz, num_real, Finset.mul_sum]
  refine Finset.sum_congr rfl fun i _ => ?_
  have e : ∀ j, padded m 0 (fun i => b * f i) 0 j = b * padded m 0 f 0 j := fun j => by
    simp only [padded]
    split_ifs <;> simp
  rw [e, e]
  ring

/-- **C126** Two straight rotors in axial wind that differ in the number of blades only, whose residual uses drag but no wake rotation, every station
solvable on both, with lift: the rotor with more blades has the larger thrust. -/
theorem evaluate_blades (bq : RootFinder ℝ) (hbq : ExactRoots bq) (hbc : FindsCrossing bq) (R : Rotor ℝ) (B' : ℕ) (cs : List (Cond ℝ)) (o o' : EvalOut ℝ)
    (co : Bool) (h : (evaluate bq R cs co).2 = .ok o) (h' : (evaluate bq (R.withBlades B') cs co).2 = .ok o') (m : ℕ) (c : Cond ℝ) (x x' : CondOut ℝ)
    (hc : cs[m]? = some c) (hx : o.conds[m]? = some x) (hx' : o'.conds[m]? = some x') (G : StraightRotor R) (hinv : R.inv = none)
    (hre : ∀ i < R.n, FixedRe R i) (hns : 0 < R.nSector) (hrho : 0 < R.rho) (hcd : R.opts.useCd = true) (hwr : R.opts.wakeRot = false) (hBB : R.B < B')
    (hO : c.Omega ≠ 0) (phi0 phi0' : ℕ → ℝ) (D : ∀ i < R.n, Solvable R c.Uinf c.Omega c.pitch 0 i (phi0 i))
    (hlift : ∀ i < R.n, 0 < (stationPolar R c.Uinf c.Omega c.pitch 0 i (phi0 i)).1)
    (D' : ∀ i < R.n, Solvable (R.withBlades B') c.Uinf c.Omega c.pitch 0 i (phi0' i)) : x.acc.T.val < x'.acc.T.val := by
  obtain ⟨L, hL, hT, -, -, -⟩ := sector_averages h hc hx
  obtain ⟨L', hL', hT', -, -, -⟩ := sector_averages h' hc hx'
  have hcos := G.cos_pos
  have G' : StraightRotor (R.withBlades B') :=
    ⟨G.n, G.hub, G.first, G.inc, G.last, G.curve, G.curveTip, G.sweep, G.sweepTip, G.cone, G.radius, ⟨G.axial.1, G.axial.2, G.axial.3⟩⟩
  have key : ∀ k < R.nSector, ∀ i < R.n, R.B * stationArr (L k).stations SecLoads.Np i < B' * stationArr (L' k).stations SecLoads.Np i := by
    intro k hk i hi
    obtain ⟨R1, e1⟩ : ∃ R', distributedAeroLoads bq R c.Uinf c.Omega c.pitch (k * (360 / R.nSector)) = (R', .ok (L k)) :=
      ⟨_, Prod.ext rfl (hL k hk)⟩
    obtain ⟨R2, e2⟩ : ∃ R', distributedAeroLoads bq (R.withBlades B') c.Uinf c.Omega c.pitch (k * (360 / R.nSector)) = (R', .ok (L' k)) :=
      ⟨_, Prod.ext rfl (hL' k hk)⟩
    obtain ⟨s, hs⟩ : ∃ s, (L k).stations[i]? = some s :=
      ⟨_, List.getElem?_eq_getElem (by rw [(solveStations_ok (distributedAeroLoads_stations e1)).1]; exact hi)⟩
    obtain ⟨s', hs'⟩ : ∃ s, (L' k).stations[i]? = some s :=
      ⟨_, List.getElem?_eq_getElem (by rw [(solveStations_ok (distributedAeroLoads_stations e2)).1]; exact hi)⟩
    have E := G.solvable hinv hi (hre i hi) (D i hi) (k * (360 / R.nSector))
    have E' := G'.solvable hinv hi (hre i hi) (D' i hi) (k * (360 / R.nSector))
    obtain ⟨S, hge, -⟩ := attached_solved hbc hinv (hre i hi) hO E e1 hs
    have S' := (attached_solved (R := R.withBlades B') hbc hinv (hre i hi) hO E' e2 hs').1
    have A := E.flow
    obtain ⟨f1, -⟩ := station_facts hinv (hre i hi) e1 hO hs (Vx := (rotorWind R c.Uinf c.Omega (k * (360 / R.nSector) * (π / 180)) i).1)
      (Vy := (rotorWind R c.Uinf c.Omega (k * (360 / R.nSector) * (π / 180)) i).2) rfl A.front.ne' A.sense.ne'
    have hcl : 0 < s.loads.cl := by
      rw [f1]
      refine lt_of_lt_of_le ?_ (A.flow.lift (lt_of_lt_of_le (by norm_num) E.start.1) hge S.angle.2.le)
      have := hlift i hi
      simp only [stationPolar, G.stationRe c.Uinf c.Omega (k * (360 / R.nSector)) hi] at this ⊢
      exact this
    have n := station_blades bq hbq hinv (hre i hi) hO hrho hcd hwr hBB A R1 R2 _ _ e1 e2 s s' hs hs' S S' hcl
    simpa [stationArr, hs, hs'] using n
  have scale : ∀ (b : ℝ) (f : ℕ → ℝ), b * ((∑ k ∈ Finset.range R.nSector, f k) / R.nSector) = (∑ k ∈ Finset.range R.nSector, b * f k) / R.nSector := fun b f => by
    rw [← Finset.mul_sum]
    ring
  rw [hT, hT']
  change _ < (B' : ℝ) * ((∑ k ∈ Finset.range R.nSector, _) / R.nSector)
  rw [scale, scale]
  refine mean_lt hns fun k hk => ?_
  simp only
  rw [(G.blade_integrals (L k)).1, (G'.blade_integrals (L' k)).1, trapz_scale, trapz_scale]
  exact G.integral_lt fun i hi => by
    have := mul_lt_mul_of_pos_right (key k hk i hi) hcos
    simp only [Rotor.withBlades]
    linarith

/-! ## An example -/

theorem blades_straight (B' : ℕ) : StraightRotor (tipLossRotor.withBlades B') :=
  have G := tipLossRotor_straight
  ⟨G.n, G.hub, G.first, G.inc, G.last, G.curve, G.curveTip, G.sweep, G.sweepTip, G.cone, G.radius, ⟨G.axial.1, G.axial.2, G.axial.3⟩⟩

private theorem blades_polar (B' : ℕ) (U az : ℝ) (i : ℕ) (p : ℝ) : stationPolar (tipLossRotor.withBlades B') U (30 / π) 0 az i p = (sin p ^ 2, 0) :=
  tipLossRotor_polar U (30 / π) az i p

private theorem blades_loss {B' : ℕ} (hB' : 3 ≤ B') {i : ℕ} (hi : i < 2) {p : ℝ} (h0 : 0 < p) (h1 : p ≤ π / 2) :
    1 / 2 ≤ lossSpec (tipLossRotor.withBlades B').opts B' (6 + i) 1 10 p := by
  have hir : (i : ℝ) ≤ 1 := by exact_mod_cast (by omega : i ≤ 1)
  have hi0 : (0 : ℝ) ≤ i := by positivity
  refine le_trans ?_ (lossSpec_blades (o := (tipLossRotor.withBlades B').opts) (B := 3) (by norm_num) hB' one_pos (by linarith) (by linarith) h0 h1)
  refine (tip_loss_half hi h0 h1).trans (le_of_eq ?_)
  simp [lossSpec, tipLossRotorLoss, tipLossRotor, Rotor.withBlades, Rotor.withOpts]

private theorem blades_k {B' : ℕ} (hB' : 3 ≤ B') (hB4 : B' ≤ 4) {i : ℕ} (hi : i < 2) {p : ℝ} (h0 : 0 < p) (h1 : p ≤ π / 2) :
    kSpec (tipLossRotor.withBlades B').opts B' (6 + i) (2 * π * (6 + i) / 3) 1 10 p (sin p ^ 2) 0 ≤ 2 / 3 := by
  have hpi := pi_pos
  have hF := blades_loss hB' hi h0 h1
  have hs : 0 < sin p := sin_pos_of_pos_of_lt_pi h0 (by linarith)
  have hc : 0 ≤ cos p := cos_nonneg_of_mem_Icc ⟨by linarith, h1⟩
  have hc1 := cos_le_one p
  have hb : (B' : ℝ) ≤ 4 := by exact_mod_cast hB4
  unfold kSpec cnSpec
  generalize lossSpec _ _ _ _ _ _ = F at hF ⊢
  have hF0 : 0 < F := by linarith
  have e : (B' : ℝ) * (2 * π * (6 + i) / 3) / (2 * π * (6 + i)) * (sin p ^ 2 * cos p + (if (tipLossRotor.withBlades B').opts.useCd = true then (0 : ℝ) else 0) * sin p)
      / (4 * F * sin p ^ 2) = B' * cos p / (12 * F) := by
    have hr : (0 : ℝ) < 6 + i := by positivity
    simp only [ite_self, zero_mul, add_zero]
    field_simp
    ring
  rw [e, div_le_iff₀ (by positivity)]
  nlinarith

theorem blades_solvable {B' : ℕ} (hB' : 3 ≤ B') (hB4 : B' ≤ 4) {i : ℕ} (hi : i < 2) :
    Solvable (tipLossRotor.withBlades B') 6 (30 / π) 0 0 i (1 / 1000000) := by
  have hpi := pi_gt_three
  have G := blades_straight B'
  have hV := G.wind 6 (30 / π) (0 * (π / 180)) hi
  have hV' : rotorWind (tipLossRotor.withBlades B') 6 (30 / π) (0 * (π / 180)) i = (6, 6 + (i : ℝ)) := by
    rw [hV]
    simp [tipLossRotor, Rotor.withBlades, Rotor.withOpts, chordRotor, annulusRotor, demoRotor, pi_ne_zero]
  have hr := G.range hi
  have hir : (i : ℝ) ≤ 1 := by exact_mod_cast (by omega : i ≤ 1)
  have hi0 : (0 : ℝ) ≤ i := by positivity
  have hpol := fun p => blades_polar B' 6 0 i p
  have hB : 0 < B' := by omega
  have hchord : (tipLossRotor.withBlades B').chord i = 2 * π * (6 + i) / 3 := by
    simp [tipLossRotor, Rotor.withBlades, Rotor.withOpts, chordRotor, annulusRotor]
  have hsmall : ∀ p, 0 < p → p ≤ π / 2 → kSpec (tipLossRotor.withBlades B').opts (tipLossRotor.withBlades B').B ((tipLossRotor.withBlades B').r i)
      ((tipLossRotor.withBlades B').chord i) (tipLossRotor.withBlades B').Rhub (tipLossRotor.withBlades B').Rtip p (sin p ^ 2) 0 ≤ 2 / 3 := fun p h0 h1 => by
    rw [hchord]
    exact blades_k hB' hB4 hi h0 h1
  have A : AttachedStation (tipLossRotor.withBlades B') 6 (30 / π) 0 0 i := by
    refine ⟨hB, G.hub, hr.1, hr.2, by rw [hchord]; positivity, by rw [hV']; norm_num, by rw [hV']; simp only; linarith, ?_⟩
    exact attachedFlow_of_constant_drag hB G.hub hr.1 hr.2
      (fun h0 h1 h2 => by
        simp only [hpol]
        exact pow_le_pow_left₀ (sin_nonneg_of_nonneg_of_le_pi h0.le (by linarith)) (sin_le_sin_of_le_of_le_pi_div_two (by linarith) h2 h1) 2)
      fun _ => ⟨0, le_rfl, fun _ _ _ => by simp only [hpol]⟩
  have hg : ∀ p ∈ Set.Icc (1 / 1000000) (π / 2), GuardFreeAngle (tipLossRotor.withBlades B') 6 (30 / π) 0 0 i p := fun p hp => by
    unfold GuardFreeAngle
    rw [hpol]
    exact fun h => absurd (hsmall p (lt_of_lt_of_le (by norm_num) hp.1) hp.2) (not_le.mpr h)
  have h0 : (0 : ℝ) < 1 / 1000000 := by norm_num
  have hlt : (1 / 1000000 : ℝ) < π / 2 := by linarith
  refine ⟨A, hg, ⟨le_rfl, hlt⟩, by rw [hpol]; positivity, by simp only [funext hpol]; fun_prop, ?_⟩
  have hgf := hg (1 / 1000000) ⟨le_rfl, hlt.le⟩
  have reg := regular_of_lift (cl := fun p => (stationPolar (tipLossRotor.withBlades B') 6 (30 / π) 0 0 i p).1)
    (cd := fun p => (stationPolar (tipLossRotor.withBlades B') 6 (30 / π) 0 0 i p).2)
    A.blades A.hub A.inner A.outer A.chord A.flow h0 hlt.le (by simp only [hpol]; positivity) hgf
  rw [stationResidual_const rfl (.inr fun _ _ _ => rfl)]
  rw [residual_side (cl := fun p => (stationPolar (tipLossRotor.withBlades B') 6 (30 / π) 0 0 i p).1)
    (cd := fun p => (stationPolar (tipLossRotor.withBlades B') 6 (30 / π) 0 0 i p).2) A.blades A.hub A.inner A.outer A.sense h0 hlt reg, hV']
  have hcp : 3 / 4 ≤ cos (1 / 1000000) := by
    have := one_sub_sq_div_two_le_cos (x := 1 / 1000000)
    norm_num at this ⊢
    linarith
  refine mul_nonpos_of_nonneg_of_nonpos (by linarith) ?_
  have hS : sectionSwirl (tipLossRotor.withBlades B').opts (tipLossRotor.withBlades B').B ((tipLossRotor.withBlades B').r i) ((tipLossRotor.withBlades B').chord i)
      (tipLossRotor.withBlades B').Rhub (tipLossRotor.withBlades B').Rtip (fun p => (stationPolar (tipLossRotor.withBlades B') 6 (30 / π) 0 0 i p).1)
      (fun p => (stationPolar (tipLossRotor.withBlades B') 6 (30 / π) 0 0 i p).2) (1 / 1000000) = 0 := by
    simp [sectionSwirl, tipLossRotor, Rotor.withBlades, Rotor.withOpts]
  unfold sectionSide
  rw [hS, mul_zero, add_zero]
  unfold sectionWake
  simp only
  rw [← kSpec_forceK (cl := fun p => (stationPolar (tipLossRotor.withBlades B') 6 (30 / π) 0 0 i p).1)
    (cd := fun p => (stationPolar (tipLossRotor.withBlades B') 6 (30 / π) 0 0 i p).2) A.blades A.hub A.inner A.outer h0 hlt]
  simp only [hpol]
  have hk := hsmall (1 / 1000000) h0 hlt.le
  unfold wakeOf
  rw [if_pos hk]
  generalize kSpec _ _ _ _ _ _ _ _ _ = k at hk ⊢
  have ht : tan (1 / 1000000) ≤ 1 / 100 := by
    rw [tan_eq_sin_div_cos, div_le_iff₀ (by linarith)]
    have : sin (1 / 1000000) ≤ 1 / 1000000 := sin_le (by norm_num)
    linarith
  have ht0 : 0 < tan (1 / 1000000) := tan_pos_of_pos_of_lt_pi_div_two h0 hlt
  have hx : 6 / 7 ≤ 6 / (6 + (i : ℝ)) := div_le_div_of_nonneg_left (by norm_num) (by linarith) (by linarith)
  nlinarith

/-- The hypotheses of `evaluate_blades` are met: with tip losses on, a fourth blade raises the thrust of `tipLossRotor`. -/
example : ∃ o o' x x', (evaluate someRoot (tipLossRotor.withBlades 3) [⟨6, 30 / π, 0⟩] false).2 = .ok o ∧
    (evaluate someRoot ((tipLossRotor.withBlades 3).withBlades 4) [⟨6, 30 / π, 0⟩] false).2 = .ok o' ∧ o.conds = [x] ∧ o'.conds = [x'] ∧
    x.acc.T.val < x'.acc.T.val := by
  have hpi := pi_gt_three
  have hO : 30 / π ≠ 0 := by positivity
  have total : ∀ B', ∃ o x, (evaluate someRoot (tipLossRotor.withBlades B') [⟨6, 30 / π, 0⟩] false).2 = .ok o ∧ o.conds = [x] := fun B' => by
    obtain ⟨o, x, h1, h2, -⟩ := evaluate_total someRoot_onlyValueError (tipLossRotor.withBlades B') ⟨6, 30 / π, 0⟩ false
      (by simp [tipLossRotor, Rotor.withBlades, Rotor.withOpts, chordRotor, annulusRotor, demoRotor]) rfl hO
      (by simp [tipLossRotor, Rotor.withBlades, Rotor.withOpts, chordRotor, annulusRotor, demoRotor])
    exact ⟨o, x, h1, h2⟩
  obtain ⟨o, x, h1, h2⟩ := total 3
  obtain ⟨o', x', h1', h2'⟩ := total 4
  refine ⟨o, o', x, x', h1, h1', h2, h2', ?_⟩
  exact evaluate_blades someRoot someRoot_exact someRoot_crossing (tipLossRotor.withBlades 3) 4 _ o o' false h1 h1' 0 ⟨6, 30 / π, 0⟩ x x' rfl
    (by rw [h2]; rfl) (by rw [h2']; rfl) (blades_straight 3) rfl (fun _ _ => .inr fun _ _ _ => rfl)
    (by simp [tipLossRotor, Rotor.withBlades, Rotor.withOpts, chordRotor, annulusRotor, demoRotor])
    (by norm_num [tipLossRotor, Rotor.withBlades, Rotor.withOpts, chordRotor, annulusRotor, demoRotor]) rfl rfl (by simp [Rotor.withBlades]) hO
    (fun _ => 1 / 1000000) (fun _ => 1 / 1000000) (fun i hi => blades_solvable (by norm_num) (by norm_num) hi)
    (fun i _ => by
      rw [blades_polar]
      have : 0 < sin (1 / 1000000) := sin_pos_of_pos_of_lt_pi (by norm_num) (by linarith)
      positivity)
    fun i hi => blades_solvable (by norm_num) (by norm_num) hi

end Verif
