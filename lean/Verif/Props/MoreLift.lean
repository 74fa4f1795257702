import Verif.Props.Drag
import Verif.Props.BladeCount
import Verif.Props.SwirlPitch

/-!
# Airfoils with more lift (C127)

An airfoil with more lift and no less drag slows the flow through the disc, or it sees the same or a larger inflow angle. In the first case the momentum
thrust of the annulus is larger, in the second the section itself is loaded more.
-/

open Real

namespace Verif

/-! ## The section -/

section
variable {o : BemOpts} {B : ℕ} {r chord Rhub Rtip Vx Vy : ℝ} {cl cd cl' cd' : ℝ → ℝ} {p q : ℝ}

/-- Two solutions of a section, possibly with different airfoils: at the smaller inflow angle the flow through the disc is slower and the normal force
larger. -/
theorem section_slower (hB : 0 < B) (hRhub : 0 < Rhub) (h1 : Rhub < r) (h2 : r < Rtip) (hc : 0 < chord) (hVx : 0 < Vx) (hVy : 0 < Vy)
    (ho : o.useCd = true) (hw : o.wakeRot = false) (hatt' : AttachedFlow o B r Rhub Rtip cl' cd') (hp : p ∈ Set.Ioo 0 (π / 2))
    (hroot : (inductionFactors r chord Rhub Rtip p (cl p) (cd p) B Vx Vy o).fzero = 0)
    (hreg : RegularK (lossSpec o B r Rhub Rtip p) (kSpec o B r chord Rhub Rtip p (cl p) (cd p)))
    (hq : q ∈ Set.Ioo 0 (π / 2)) (hroot' : (inductionFactors r chord Rhub Rtip q (cl' q) (cd' q) B Vx Vy o).fzero = 0)
    (hreg' : RegularK (lossSpec o B r Rhub Rtip q) (kSpec o B r chord Rhub Rtip q (cl' q) (cd' q))) (hcl' : 0 ≤ cl' q) (hlt : q < p) :
    let I := inductionFactors r chord Rhub Rtip p (cl p) (cd p) B Vx Vy o
    let J := inductionFactors r chord Rhub Rtip q (cl' q) (cd' q) B Vx Vy o
    relSpeed p I.a I.ap Vx Vy ^ 2 * (cl p * cos p + cd p * sin p) < relSpeed q J.a J.ap Vx Vy ^ 2 * (cl' q * cos q + cd' q * sin q) := by
  intro I J
  have hr : 0 < r := hRhub.trans h1
  have hpi := pi_pos
  have hBr : (0 : ℝ) < B := by exact_mod_cast hB
  have t1 := section_thrust hB hRhub h1 h2 hVx hVy ho hw hp hroot hreg
  have t2 := section_thrust hB hRhub h1 h2 hVx hVy ho hw hq hroot' hreg'
  have hd : 0 ≤ usedDrag o cd' q := by
    unfold usedDrag
    rw [if_pos ho]
    exact (hatt'.drag ho hq.1 le_rfl hq.2.le).1
  have hslow := section_slowed hB hRhub h1 h2 hc hVx hVy hw hq hroot' hreg' hcl' hd
  have htan : tan q < tan p := tan_lt_tan_of_nonneg_of_lt_pi_div_two hq.1.le hp.2 hlt
  have htan0 : 0 < tan q := tan_pos_of_pos_of_lt_pi_div_two hq.1 hq.2
  have key := thrustOf_lt (lossSpec_range o B hB r Rhub Rtip p hRhub h1 h2 hp.1 (by linarith [hp.2])).1
    (lossSpec_anti (o := o) hB hRhub h1 h2 hq.1 hlt.le hp.2.le)
    (lossSpec_range o B hB r Rhub Rtip q hRhub h1 h2 hq.1 (by linarith [hq.2])).2
    (u1 := tan q * (Vy / Vx)) (u2 := tan p * (Vy / Vx)) (by positivity) (mul_lt_mul_of_pos_right htan (by positivity)) hslow
  have hcmp := mul_lt_mul_of_pos_left key (show 0 < Vx ^ 2 * (2 * π * r) by positivity)
  rw [← t1, ← t2] at hcmp
  refine lt_of_mul_lt_mul_left ?_ (mul_pos hBr hc).le
  refine lt_of_eq_of_lt ?_ (lt_of_lt_of_eq hcmp ?_) <;> ring

/-- **C127** A section with two airfoils, solved with both, with lift and drag in the residual: the airfoil with more lift and no less drag at every inflow
angle has the larger normal force. With wake rotation the drag must be equal and the section with less lift must not brake the rotor. -/
theorem section_lift (hB : 0 < B) (hRhub : 0 < Rhub) (h1 : Rhub < r) (h2 : r < Rtip) (hc : 0 < chord) (hVx : 0 < Vx) (hVy : 0 < Vy)
    (ho : o.useCd = true) (hatt : AttachedFlow o B r Rhub Rtip cl cd) (hatt' : AttachedFlow o B r Rhub Rtip cl' cd')
    (hmore : ∀ x ∈ Set.Ioo 0 (π / 2), cl x < cl' x ∧ cd x ≤ cd' x) (hp : p ∈ Set.Ioo 0 (π / 2))
    (hroot : (inductionFactors r chord Rhub Rtip p (cl p) (cd p) B Vx Vy o).fzero = 0)
    (hreg : RegularK (lossSpec o B r Rhub Rtip p) (kSpec o B r chord Rhub Rtip p (cl p) (cd p))) (hcl : 0 < cl p)
    (hq : q ∈ Set.Ioo 0 (π / 2)) (hroot' : (inductionFactors r chord Rhub Rtip q (cl' q) (cd' q) B Vx Vy o).fzero = 0)
    (hreg' : RegularK (lossSpec o B r Rhub Rtip q) (kSpec o B r chord Rhub Rtip q (cl' q) (cd' q))) (hcl' : 0 ≤ cl' q)
    (hsw : o.wakeRot = true → (∀ x ∈ Set.Ioo 0 (π / 2), cd x = cd' x) ∧ 0 ≤ cl p * sin p - cd p * cos p) :
    let I := inductionFactors r chord Rhub Rtip p (cl p) (cd p) B Vx Vy o
    let J := inductionFactors r chord Rhub Rtip q (cl' q) (cd' q) B Vx Vy o
    relSpeed p I.a I.ap Vx Vy ^ 2 * (cl p * cos p + cd p * sin p) < relSpeed q J.a J.ap Vx Vy ^ 2 * (cl' q * cos q + cd' q * sin q) := by
  intro I J
  have hpi := pi_pos
  by_cases hw : o.wakeRot = true
  · obtain ⟨hdd, hct⟩ := hsw hw
    have hBr : (0 : ℝ) < B := by exact_mod_cast hB
    have hud : usedDrag o cd p = usedDrag o cd' p := by simp only [usedDrag, hdd p hp]
    have hlt : q < p := by
      by_contra hge
      push Not at hge
      have e := sectionSide_root (cl := cl) (cd := cd) hB hRhub h1 h2 hVy hp.1 hp.2 hreg hroot
      have e' := sectionSide_root (cl := cl') (cd := cd') hB hRhub h1 h2 hVy hq.1 hq.2 hreg' hroot'
      have l := sectionSide_lift (o := o) (B := B) (chord := chord) (cl := cl) (cl' := cl') (cd := cd) (cd' := cd') hB hRhub h1 h2 hc hVx hVy hp.1 hp.2
        (hmore p hp).1 hud
      rcases hge.eq_or_lt with heq | hgt
      · rw [← heq] at e'
        linarith
      · have m := sectionSide_lt (cl := cl') (cd := cd') hB hRhub h1 h2 hc hVx hVy hatt' hp.1 hgt hq.2 hcl'
        linarith
    have key := thrust_smaller_angle hB hB hRhub h1 h2 hc hVx hVy ho hp hroot hreg hcl.le (hatt.drag ho hp.1 le_rfl hp.2.le).1 (fun _ => hct) hq hroot' hreg' hlt
      (lossSpec_anti (o := o) hB hRhub h1 h2 hq.1 hlt.le hp.2.le) fun hw => by
        rw [← hdd q hq]
        exact mul_le_mul_of_nonneg_left (drag_over_sin hB hRhub h1 h2 ho hw hatt hq.1 hlt.le hp.2) (by positivity)
    exact lt_of_mul_lt_mul_left key (by positivity)
  replace hw : o.wakeRot = false := by simpa using hw
  rcases lt_or_ge q p with hlt | hle
  · exact section_slower hB hRhub h1 h2 hc hVx hVy ho hw hatt' hp hroot hreg hq hroot' hreg' hcl' hlt
  · -- the section itself is loaded more
    obtain ⟨-, t⟩ := section_speed hB hRhub h1 h2 hc hVx hVy hatt hp hroot hreg hcl.le
    obtain ⟨-, t'⟩ := section_speed hB hRhub h1 h2 hc hVx hVy hatt' hq hroot' hreg' hcl'
    have s0 : sectionSwirl o B r chord Rhub Rtip cl cd p = 0 := by simp [sectionSwirl, hw]
    have s0' : sectionSwirl o B r chord Rhub Rtip cl' cd' q = 0 := by simp [sectionSwirl, hw]
    rw [s0, sub_zero, div_one] at t
    rw [s0', sub_zero, div_one] at t'
    have hcp : 0 < cos p := cos_pos_of_mem_Ioo ⟨by linarith [hp.1], hp.2⟩
    have hsp : 0 < sin p := sin_pos_of_pos_of_lt_pi hp.1 (by linarith [hp.2])
    obtain ⟨m1, m2⟩ := hmore q hq
    rcases hle.eq_or_lt with heq | hlt
    · subst heq
      have hWW : relSpeed p I.a I.ap Vx Vy ^ 2 = relSpeed p J.a J.ap Vx Vy ^ 2 := mul_right_cancel₀ (by positivity) (t.trans t'.symm)
      have hW : 0 < relSpeed p I.a I.ap Vx Vy ^ 2 := by
        refine pos_of_mul_pos_left (b := cos p ^ 2) ?_ (by positivity)
        refine lt_of_lt_of_eq ?_ t.symm
        positivity
      rw [← hWW]
      exact mul_lt_mul_of_pos_left (add_lt_add_of_lt_of_le (mul_lt_mul_of_pos_right m1 hcp) (mul_le_mul_of_nonneg_right m2 hsp.le)) hW
    · exact (forces_rise hp.1 hlt hq.2 (by positivity) le_rfl t t' hcl ((hatt.lift hp.1 hlt.le hq.2.le).trans m1.le)
        (hatt.drag ho hp.1 le_rfl hp.2.le).1 ((hatt.drag ho hp.1 hlt.le hq.2.le).2.trans m2)).1

end

/-! ## The station -/

/-- At every inflow angle in the first quadrant the airfoil of station `i` on the second rotor has more lift and no less drag than that on the first. -/
def MoreLift (R R' : Rotor ℝ) (Uinf Omega pitch az : ℝ) (i : ℕ) : Prop :=
  ∀ phi ∈ Set.Ioo 0 (π / 2), (stationPolar R Uinf Omega pitch az i phi).1 < (stationPolar R' Uinf Omega pitch az i phi).1 ∧
    (stationPolar R Uinf Omega pitch az i phi).2 ≤ (stationPolar R' Uinf Omega pitch az i phi).2

/-- **C127** A station on two rotors that differ in the airfoils only, solved on both with lift: the normal force is larger with the airfoil that has
more lift and no less drag. With wake rotation the drag must be equal and the station with less lift must not brake the rotor. -/
theorem station_lift {R : Rotor ℝ} {af' : ℕ → AirfoilI ℝ} {Uinf Omega pitch az : ℝ} {i : ℕ} (bq : RootFinder ℝ) (hbq : ExactRoots bq) (hinv : R.inv = none)
    (hre : FixedRe R i) (hre' : FixedRe (R.withAirfoils af') i) (hO : Omega ≠ 0) (hrho : 0 < R.rho) (hcd : R.opts.useCd = true)
    (hatt : AttachedStation R Uinf Omega pitch az i) (hatt' : AttachedStation (R.withAirfoils af') Uinf Omega pitch az i)
    (hmore : MoreLift R (R.withAirfoils af') Uinf Omega pitch az i)
    (R1 R2 : Rotor ℝ) (L L' : LoadsOut ℝ) (h : distributedAeroLoads bq R Uinf Omega pitch az = (R1, .ok L))
    (h' : distributedAeroLoads bq (R.withAirfoils af') Uinf Omega pitch az = (R2, .ok L')) (s s' : Station ℝ) (hs : L.stations[i]? = some s)
    (hs' : L'.stations[i]? = some s') (S : SolvedWithLift R Uinf Omega pitch az i s) (S' : SolvedWithLift (R.withAirfoils af') Uinf Omega pitch az i s')
    (hcl : 0 < s.loads.cl)
    (hsw : R.opts.wakeRot = true → (∀ phi ∈ Set.Ioo 0 (π / 2), (stationPolar R Uinf Omega pitch az i phi).2
      = (stationPolar (R.withAirfoils af') Uinf Omega pitch az i phi).2) ∧ 0 ≤ s.loads.Tp) : s.loads.Np < s'.loads.Np := by
  have hpi := pi_gt_three
  obtain ⟨Vx, Vy, hV⟩ : ∃ Vx Vy, rotorWind R Uinf Omega (az * (π / 180)) i = (Vx, Vy) := ⟨_, _, rfl⟩
  have hV' : rotorWind (R.withAirfoils af') Uinf Omega (az * (π / 180)) i = (Vx, Vy) := hV
  obtain ⟨hB, hRhub, h1, h2, hc, hVx, hVy, hflow⟩ := hatt
  have hflow' := hatt'.flow
  rw [hV] at hVx hVy
  simp only at hVx hVy
  obtain ⟨f1, f2, f3, -⟩ := station_facts hinv hre h hO hs hV hVx.ne' hVy.ne'
  obtain ⟨g1, g2, g3, -⟩ := station_facts (R := R.withAirfoils af') hinv hre' h' hO hs' hV' hVx.ne' hVy.ne'
  have e := stationResidual_const (Uinf := Uinf) (Omega := Omega) (pitch := pitch) (az := az) hinv hre
  have e' := stationResidual_const (R := R.withAirfoils af') (Uinf := Uinf) (Omega := Omega) (pitch := pitch) (az := az) hinv hre'
  rw [hV] at e
  rw [hV'] at e'
  have r1 := S.regular
  have r2 := S'.regular
  have l2 := S'.lift
  unfold RegularAngle at r1 r2
  obtain ⟨z, -, -⟩ := exact_interval hbq h hO hs S.solved
  obtain ⟨z', -, -⟩ := exact_interval (R := R.withAirfoils af') hbq h' hO hs' S'.solved
  rw [e] at z
  rw [e'] at z'
  rw [f1] at hcl
  rw [g1] at l2
  obtain ⟨a1, a2, a3, -⟩ := distributedAeroLoads_forces bq R R1 _ _ _ _ L h i s hs
  have hC : 0 < s.loads.W ^ 2 := by
    have hsp := section_speed hB hRhub h1 h2 hc hVx hVy hflow S.angle z r1 hcl.le
    simp only at hsp
    rw [← f3] at hsp
    have := pow_pos (div_pos hVy hsp.1) 2
    rw [← hsp.2] at this
    exact pos_of_mul_pos_left this (sq_nonneg _)
  have hsw' := fun hw => (hsw hw).2
  rw [a3, a1, f1, f2] at hsw'
  have key := section_lift (cl := fun p => (stationPolar R Uinf Omega pitch az i p).1) (cd := fun p => (stationPolar R Uinf Omega pitch az i p).2)
    (cl' := fun p => (stationPolar (R.withAirfoils af') Uinf Omega pitch az i p).1) (cd' := fun p => (stationPolar (R.withAirfoils af') Uinf Omega pitch az i p).2)
    hB hRhub h1 h2 hc hVx hVy hcd hflow hflow' hmore S.angle z r1 hcl S'.angle z' r2 l2
    fun hw => ⟨(hsw hw).1, nonneg_of_mul_nonneg_right (hsw' hw) (by positivity)⟩
  obtain ⟨b1, b2, -⟩ := distributedAeroLoads_forces bq _ R2 _ _ _ _ L' h' i s' hs'
  have hch : (R.withAirfoils af').chord i = R.chord i := rfl
  have hrho' : (R.withAirfoils af').rho = R.rho := rfl
  rw [hch] at b2
  rw [hrho'] at b1
  rw [a2, b2, a1, b1, f1, f2, g1, g2]
  have h4 := mul_lt_mul_of_pos_left key (show 0 < R.rho / 2 * R.chord i by positivity)
  rw [← f3] at h4
  have g3' : s'.loads.W = relSpeed s'.phi (inductionFactors (R.r i) (R.chord i) R.Rhub R.Rtip s'.phi (stationPolar (R.withAirfoils af') Uinf Omega pitch az i s'.phi).1
      (stationPolar (R.withAirfoils af') Uinf Omega pitch az i s'.phi).2 R.B Vx Vy R.opts).a (inductionFactors (R.r i) (R.chord i) R.Rhub R.Rtip s'.phi
      (stationPolar (R.withAirfoils af') Uinf Omega pitch az i s'.phi).1 (stationPolar (R.withAirfoils af') Uinf Omega pitch az i s'.phi).2 R.B Vx Vy R.opts).ap Vx Vy := g3
  rw [← g3'] at h4
  refine lt_of_eq_of_lt ?_ (lt_of_lt_of_eq h4 ?_) <;> ring

/-! ## The rotor -/

/-- **C127** Two straight rotors in axial wind that differ in the airfoils only, whose residual uses drag, every station solvable on both,
with lift: with airfoils of more lift and no less drag, thrust and blade root moment are larger. With wake rotation the drag must be equal and no station of
the rotor with less lift may brake it. -/
theorem evaluate_lift (bq : RootFinder ℝ) (hbq : ExactRoots bq) (hbc : FindsCrossing bq) (R : Rotor ℝ) (af' : ℕ → AirfoilI ℝ) (cs : List (Cond ℝ))
    (o o' : EvalOut ℝ) (co : Bool) (h : (evaluate bq R cs co).2 = .ok o) (h' : (evaluate bq (R.withAirfoils af') cs co).2 = .ok o') (m : ℕ) (c : Cond ℝ)
    (x x' : CondOut ℝ) (hc : cs[m]? = some c) (hx : o.conds[m]? = some x) (hx' : o'.conds[m]? = some x') (G : StraightRotor R) (hinv : R.inv = none)
    (hre : ∀ i < R.n, FixedRe R i) (hre' : ∀ i < R.n, FixedRe (R.withAirfoils af') i) (hns : 0 < R.nSector) (hrho : 0 < R.rho)
    (hcd : R.opts.useCd = true) (hO : c.Omega ≠ 0)
    (hmore : ∀ i < R.n, MoreLift R (R.withAirfoils af') c.Uinf c.Omega c.pitch 0 i) (phi0 phi0' : ℕ → ℝ)
    (D : ∀ i < R.n, Solvable R c.Uinf c.Omega c.pitch 0 i (phi0 i))
    (hlift : ∀ i < R.n, 0 < (stationPolar R c.Uinf c.Omega c.pitch 0 i (phi0 i)).1)
    (D' : ∀ i < R.n, Solvable (R.withAirfoils af') c.Uinf c.Omega c.pitch 0 i (phi0' i))
    (hsame : R.opts.wakeRot = true → ∀ i < R.n, ∀ phi ∈ Set.Ioo 0 (π / 2), (stationPolar R c.Uinf c.Omega c.pitch 0 i phi).2
      = (stationPolar (R.withAirfoils af') c.Uinf c.Omega c.pitch 0 i phi).2)
    (hdrive : R.opts.wakeRot = true → ∀ k < R.nSector, ∀ L, (distributedAeroLoads bq R c.Uinf c.Omega c.pitch (k * (360 / R.nSector))).2 = .ok L →
      ∀ (i : ℕ) (s : Station ℝ), L.stations[i]? = some s → 0 ≤ s.loads.Tp) :
    x.acc.T.val < x'.acc.T.val ∧ x.acc.Mb.val < x'.acc.Mb.val := by
  obtain ⟨L, hL, hT, -, hM, -⟩ := sector_averages h hc hx
  obtain ⟨L', hL', hT', -, hM', -⟩ := sector_averages h' hc hx'
  have hcos := G.cos_pos
  have hn := G.n
  have hB : 0 < R.B := (D 0 (by omega)).flow.blades
  have hBr : (0 : ℝ) < R.B := by exact_mod_cast hB
  have G' : StraightRotor (R.withAirfoils af') :=
    ⟨G.n, G.hub, G.first, G.inc, G.last, G.curve, G.curveTip, G.sweep, G.sweepTip, G.cone, G.radius, ⟨G.axial.1, G.axial.2, G.axial.3⟩⟩
  have key : ∀ k < R.nSector, ∀ i < R.n, stationArr (L k).stations SecLoads.Np i < stationArr (L' k).stations SecLoads.Np i := by
    intro k hk i hi
    obtain ⟨R1, e1⟩ : ∃ R', distributedAeroLoads bq R c.Uinf c.Omega c.pitch (k * (360 / R.nSector)) = (R', .ok (L k)) :=
      ⟨_, Prod.ext rfl (hL k hk)⟩
    obtain ⟨R2, e2⟩ : ∃ R', distributedAeroLoads bq (R.withAirfoils af') c.Uinf c.Omega c.pitch (k * (360 / R.nSector)) = (R', .ok (L' k)) :=
      ⟨_, Prod.ext rfl (hL' k hk)⟩
    obtain ⟨s, hs⟩ : ∃ s, (L k).stations[i]? = some s :=
      ⟨_, List.getElem?_eq_getElem (by rw [(solveStations_ok (distributedAeroLoads_stations e1)).1]; exact hi)⟩
    obtain ⟨s', hs'⟩ : ∃ s, (L' k).stations[i]? = some s :=
      ⟨_, List.getElem?_eq_getElem (by rw [(solveStations_ok (distributedAeroLoads_stations e2)).1]; exact hi)⟩
    have E := G.solvable hinv hi (hre i hi) (D i hi) (k * (360 / R.nSector))
    have E' := G'.solvable hinv hi (hre' i hi) (D' i hi) (k * (360 / R.nSector))
    obtain ⟨S, hge, -⟩ := attached_solved hbc hinv (hre i hi) hO E e1 hs
    have S' := (attached_solved (R := R.withAirfoils af') hbc hinv (hre' i hi) hO E' e2 hs').1
    have A := E.flow
    obtain ⟨f1, -⟩ := station_facts hinv (hre i hi) e1 hO hs (Vx := (rotorWind R c.Uinf c.Omega (k * (360 / R.nSector) * (π / 180)) i).1)
      (Vy := (rotorWind R c.Uinf c.Omega (k * (360 / R.nSector) * (π / 180)) i).2) rfl A.front.ne' A.sense.ne'
    have hcl : 0 < s.loads.cl := by
      rw [f1]
      refine lt_of_lt_of_le ?_ (A.flow.lift (lt_of_lt_of_le (by norm_num) E.start.1) hge S.angle.2.le)
      have := hlift i hi
      simp only [stationPolar, G.stationRe c.Uinf c.Omega (k * (360 / R.nSector)) hi] at this ⊢
      exact this
    have hm : MoreLift R (R.withAirfoils af') c.Uinf c.Omega c.pitch (k * (360 / R.nSector)) i := fun phi hphi => by
      have := hmore i hi phi hphi
      have g := G'.stationRe c.Uinf c.Omega (k * (360 / R.nSector)) hi
      simp only [stationPolar, G.stationRe c.Uinf c.Omega (k * (360 / R.nSector)) hi, g] at this ⊢
      exact this
    have n := station_lift bq hbq hinv (hre i hi) (hre' i hi) hO hrho hcd A E'.flow hm R1 R2 _ _ e1 e2 s s' hs hs' S S' hcl fun hw =>
      ⟨fun phi hphi => by
        have := hsame hw i hi phi hphi
        have g := G'.stationRe c.Uinf c.Omega (k * (360 / R.nSector)) hi
        simp only [stationPolar, G.stationRe c.Uinf c.Omega (k * (360 / R.nSector)) hi, g] at this ⊢
        exact this, hdrive hw k hk _ (hL k hk) i s hs⟩
    simpa [stationArr, hs, hs'] using n
  constructor
  · rw [hT, hT']
    refine mul_lt_mul_of_pos_left (mean_lt hns fun k hk => ?_) hBr
    simp only
    rw [(G.blade_integrals (L k)).1, (G'.blade_integrals (L' k)).1]
    exact G.integral_lt fun i hi => mul_lt_mul_of_pos_right (key k hk i hi) hcos
  · rw [hM, hM']
    refine mean_lt hns fun k hk => ?_
    simp only
    rw [(G.blade_integrals (L k)).2.2, (G'.blade_integrals (L' k)).2.2]
    exact G.integral_lt fun i hi => mul_lt_mul_of_pos_right (key k hk i hi) (mul_pos (G.hub.trans (G.range hi).1) hcos)

/-! ## An example -/

/-- Airfoils with lift coefficient `c sin² α` and no drag -/
noncomputable def squareLift (c : ℝ) : ℕ → AirfoilI ℝ :=
  fun _ => ⟨fun alpha _ => (c * sin alpha ^ 2, 0), fun _ _ => 0, fun _ _ => 0, fun _ _ => 0, fun _ _ => 0⟩

/-- `tipLossRotor` with the airfoils `squareLift c` -/
noncomputable def liftRotor (c : ℝ) : Rotor ℝ := tipLossRotor.withAirfoils (squareLift c)

theorem liftRotor_straight (c : ℝ) : StraightRotor (liftRotor c) :=
  have G := tipLossRotor_straight
  ⟨G.n, G.hub, G.first, G.inc, G.last, G.curve, G.curveTip, G.sweep, G.sweepTip, G.cone, G.radius, ⟨G.axial.1, G.axial.2, G.axial.3⟩⟩

theorem liftRotor_polar (c U Omega az : ℝ) (i : ℕ) (p : ℝ) : stationPolar (liftRotor c) U Omega 0 az i p = (c * sin p ^ 2, 0) := by
  simp [stationPolar, liftRotor, squareLift, Rotor.withAirfoils, tipLossRotor, Rotor.withOpts, chordRotor, annulusRotor]

private theorem lift_k {c : ℝ} (hc0 : 0 < c) (hc : c ≤ 4 / 3) {i : ℕ} (hi : i < 2) {p : ℝ} (h0 : 0 < p) (h1 : p ≤ π / 2) :
    kSpec (liftRotor c).opts 3 (6 + i) (2 * π * (6 + i) / 3) 1 10 p (c * sin p ^ 2) 0 ≤ 2 / 3 := by
  have hpi := pi_pos
  have hF : 1 / 2 ≤ lossSpec (liftRotor c).opts 3 (6 + i) 1 10 p := by
    refine (tip_loss_half hi h0 h1).trans (le_of_eq ?_)
    simp [lossSpec, tipLossRotorLoss, liftRotor, Rotor.withAirfoils, tipLossRotor, Rotor.withOpts]
  have hs : 0 < sin p := sin_pos_of_pos_of_lt_pi h0 (by linarith)
  have hcp : 0 ≤ cos p := cos_nonneg_of_mem_Icc ⟨by linarith, h1⟩
  have hc1 := cos_le_one p
  unfold kSpec cnSpec
  generalize lossSpec _ _ _ _ _ _ = F at hF ⊢
  have hF0 : 0 < F := by linarith
  have e : ((3 : ℕ) : ℝ) * (2 * π * (6 + i) / 3) / (2 * π * (6 + i)) * (c * sin p ^ 2 * cos p + (if (liftRotor c).opts.useCd = true then (0 : ℝ) else 0) * sin p)
      / (4 * F * sin p ^ 2) = c * cos p / (4 * F) := by
    have hr : (0 : ℝ) < 6 + i := by positivity
    simp only [ite_self, zero_mul, add_zero]
    push_cast
    field_simp
  rw [e, div_le_iff₀ (by positivity)]
  nlinarith [mul_le_mul hc hc1 hcp (by norm_num)]

theorem liftRotor_solvable {c : ℝ} (hc0 : 0 < c) (hc : c ≤ 4 / 3) {i : ℕ} (hi : i < 2) :
    Solvable (liftRotor c) 6 (30 / π) 0 0 i (1 / 1000000) := by
  have hpi := pi_gt_three
  have G := liftRotor_straight c
  have hV := G.wind 6 (30 / π) (0 * (π / 180)) hi
  have hV' : rotorWind (liftRotor c) 6 (30 / π) (0 * (π / 180)) i = (6, 6 + (i : ℝ)) := by
    rw [hV]
    simp [liftRotor, Rotor.withAirfoils, tipLossRotor, Rotor.withOpts, chordRotor, annulusRotor, demoRotor, pi_ne_zero]
  have hr := G.range hi
  have hir : (i : ℝ) ≤ 1 := by exact_mod_cast (by omega : i ≤ 1)
  have hi0 : (0 : ℝ) ≤ i := by positivity
  have hpol := fun p => liftRotor_polar c 6 (30 / π) 0 i p
  have hB : 0 < (liftRotor c).B := by simp [liftRotor, Rotor.withAirfoils, tipLossRotor, Rotor.withOpts, chordRotor, annulusRotor, demoRotor]
  have hchord : (liftRotor c).chord i = 2 * π * (6 + i) / 3 := by
    simp [liftRotor, Rotor.withAirfoils, tipLossRotor, Rotor.withOpts, chordRotor, annulusRotor]
  have hsmall : ∀ p, 0 < p → p ≤ π / 2 → kSpec (liftRotor c).opts (liftRotor c).B ((liftRotor c).r i)
      ((liftRotor c).chord i) (liftRotor c).Rhub (liftRotor c).Rtip p (c * sin p ^ 2) 0 ≤ 2 / 3 := fun p h0 h1 => by
    rw [hchord]
    exact lift_k hc0 hc hi h0 h1
  have A : AttachedStation (liftRotor c) 6 (30 / π) 0 0 i := by
    refine ⟨hB, G.hub, hr.1, hr.2, by rw [hchord]; positivity, by rw [hV']; norm_num, by rw [hV']; simp only; linarith, ?_⟩
    exact attachedFlow_of_constant_drag hB G.hub hr.1 hr.2
      (fun h0 h1 h2 => by
        simp only [hpol]
        exact mul_le_mul_of_nonneg_left
          (pow_le_pow_left₀ (sin_nonneg_of_nonneg_of_le_pi h0.le (by linarith)) (sin_le_sin_of_le_of_le_pi_div_two (by linarith) h2 h1) 2) hc0.le)
      fun _ => ⟨0, le_rfl, fun _ _ _ => by simp only [hpol]⟩
  have hg : ∀ p ∈ Set.Icc (1 / 1000000) (π / 2), GuardFreeAngle (liftRotor c) 6 (30 / π) 0 0 i p := fun p hp => by
    unfold GuardFreeAngle
    rw [hpol]
    exact fun h => absurd (hsmall p (lt_of_lt_of_le (by norm_num) hp.1) hp.2) (not_le.mpr h)
  have h0 : (0 : ℝ) < 1 / 1000000 := by norm_num
  have hlt : (1 / 1000000 : ℝ) < π / 2 := by linarith
  refine ⟨A, hg, ⟨le_rfl, hlt⟩, by rw [hpol]; positivity, by simp only [funext hpol]; fun_prop, ?_⟩
  have hgf := hg (1 / 1000000) ⟨le_rfl, hlt.le⟩
  have reg := regular_of_lift (cl := fun p => (stationPolar (liftRotor c) 6 (30 / π) 0 0 i p).1)
    (cd := fun p => (stationPolar (liftRotor c) 6 (30 / π) 0 0 i p).2)
    A.blades A.hub A.inner A.outer A.chord A.flow h0 hlt.le (by simp only [hpol]; positivity) hgf
  rw [stationResidual_const rfl (.inr fun _ _ _ => rfl)]
  rw [residual_side (cl := fun p => (stationPolar (liftRotor c) 6 (30 / π) 0 0 i p).1)
    (cd := fun p => (stationPolar (liftRotor c) 6 (30 / π) 0 0 i p).2) A.blades A.hub A.inner A.outer A.sense h0 hlt reg, hV']
  have hcp : 3 / 4 ≤ cos (1 / 1000000) := by
    have := one_sub_sq_div_two_le_cos (x := 1 / 1000000)
    norm_num at this ⊢
    linarith
  refine mul_nonpos_of_nonneg_of_nonpos (by linarith) ?_
  have hS : sectionSwirl (liftRotor c).opts (liftRotor c).B ((liftRotor c).r i) ((liftRotor c).chord i)
      (liftRotor c).Rhub (liftRotor c).Rtip (fun p => (stationPolar (liftRotor c) 6 (30 / π) 0 0 i p).1)
      (fun p => (stationPolar (liftRotor c) 6 (30 / π) 0 0 i p).2) (1 / 1000000) = 0 := by
    simp [sectionSwirl, liftRotor, Rotor.withAirfoils, tipLossRotor, Rotor.withOpts]
  unfold sectionSide
  rw [hS, mul_zero, add_zero]
  unfold sectionWake
  simp only
  rw [← kSpec_forceK (cl := fun p => (stationPolar (liftRotor c) 6 (30 / π) 0 0 i p).1)
    (cd := fun p => (stationPolar (liftRotor c) 6 (30 / π) 0 0 i p).2) A.blades A.hub A.inner A.outer h0 hlt]
  simp only [hpol]
  have hk := hsmall (1 / 1000000) h0 hlt.le
  unfold wakeOf
  rw [if_pos hk]
  generalize kSpec _ _ _ _ _ _ _ _ _ = k at hk ⊢
  have ht : tan (1 / 1000000) ≤ 1 / 100 := by
    rw [tan_eq_sin_div_cos, div_le_iff₀ (by linarith)]
    have : sin (1 / 1000000) ≤ 1 / 1000000 := sin_le (by norm_num)
    linarith
  have ht0 : 0 < tan (1 / 1000000) := tan_pos_of_pos_of_lt_pi_div_two h0 hlt
  have hx : 6 / 7 ≤ 6 / (6 + (i : ℝ)) := div_le_div_of_nonneg_left (by norm_num) (by linarith) (by linarith)
  nlinarith

/-- The hypotheses of `evaluate_lift` are met: with tip losses on, airfoils with a quarter more lift raise the thrust and the blade root moment. -/
example : ∃ o o' x x', (evaluate someRoot (liftRotor 1) [⟨6, 30 / π, 0⟩] false).2 = .ok o ∧
    (evaluate someRoot ((liftRotor 1).withAirfoils (squareLift (5 / 4))) [⟨6, 30 / π, 0⟩] false).2 = .ok o' ∧ o.conds = [x] ∧ o'.conds = [x'] ∧
    x.acc.T.val < x'.acc.T.val ∧ x.acc.Mb.val < x'.acc.Mb.val := by
  have hpi := pi_gt_three
  have hO : 30 / π ≠ 0 := by positivity
  have total : ∀ c, ∃ o x, (evaluate someRoot (liftRotor c) [⟨6, 30 / π, 0⟩] false).2 = .ok o ∧ o.conds = [x] := fun c => by
    obtain ⟨o, x, h1, h2, -⟩ := evaluate_total someRoot_onlyValueError (liftRotor c) ⟨6, 30 / π, 0⟩ false
      (by simp [liftRotor, Rotor.withAirfoils, tipLossRotor, Rotor.withOpts, chordRotor, annulusRotor, demoRotor]) rfl hO
      (by simp [liftRotor, Rotor.withAirfoils, tipLossRotor, Rotor.withOpts, chordRotor, annulusRotor, demoRotor])
    exact ⟨o, x, h1, h2⟩
  obtain ⟨o, x, h1, h2⟩ := total 1
  obtain ⟨o', x', h1', h2'⟩ := total (5 / 4)
  refine ⟨o, o', x, x', h1, h1', h2, h2', ?_⟩
  exact evaluate_lift someRoot someRoot_exact someRoot_crossing (liftRotor 1) (squareLift (5 / 4)) _ o o' false h1 h1' 0 ⟨6, 30 / π, 0⟩ x x' rfl
    (by rw [h2]; rfl) (by rw [h2']; rfl) (liftRotor_straight 1) rfl (fun _ _ => .inr fun _ _ _ => rfl) (fun _ _ => .inr fun _ _ _ => rfl)
    (by simp [liftRotor, Rotor.withAirfoils, tipLossRotor, Rotor.withOpts, chordRotor, annulusRotor, demoRotor])
    (by norm_num [liftRotor, Rotor.withAirfoils, tipLossRotor, Rotor.withOpts, chordRotor, annulusRotor, demoRotor]) rfl hO
    (fun i _ phi hphi => by
      have hs : 0 < sin phi := sin_pos_of_pos_of_lt_pi hphi.1 (by linarith [hphi.2])
      have e : (liftRotor 1).withAirfoils (squareLift (5 / 4)) = liftRotor (5 / 4) := rfl
      rw [e, liftRotor_polar, liftRotor_polar]
      exact ⟨mul_lt_mul_of_pos_right (by norm_num) (by positivity), le_rfl⟩)
    (fun _ => 1 / 1000000) (fun _ => 1 / 1000000) (fun i hi => liftRotor_solvable (by norm_num) (by norm_num) hi)
    (fun i _ => by
      rw [liftRotor_polar]
      have : 0 < sin (1 / 1000000) := sin_pos_of_pos_of_lt_pi (by norm_num) (by linarith)
      positivity)
    (fun i hi => liftRotor_solvable (by norm_num) (by norm_num) hi) (fun h => absurd h (by simp [liftRotor, Rotor.withAirfoils, tipLossRotor, Rotor.withOpts]))
    fun h => absurd h (by simp [liftRotor, Rotor.withAirfoils, tipLossRotor, Rotor.withOpts])

/-- Airfoils with lift coefficient `w (1 + sin α)` and no drag -/
noncomputable def raisedLift (w : ℝ) : ℕ → AirfoilI ℝ :=
  fun _ => ⟨fun alpha _ => (w * (1 + sin alpha), 0), fun _ _ => 0, fun _ _ => 0, fun _ _ => 0, fun _ _ => 0⟩

private theorem raised_polar (w U Omega az : ℝ) (i : ℕ) (p : ℝ) :
    stationPolar ((swirlRotor 1).withAirfoils (raisedLift w)) U Omega 0 az i p = (w * (1 + sin p), 0) := by
  simp [stationPolar, raisedLift, Rotor.withAirfoils, swirlRotor, featherRotor, annulusRotor]

private theorem raised_chord (w : ℝ) (i : ℕ) : (swirlRotor w).chord i = w * (swirlRotor 1).chord i := by simp [swirlRotor]

private theorem raised_k (o : BemOpts) (B : ℕ) (r chord Rhub Rtip p w l : ℝ) :
    kSpec o B r chord Rhub Rtip p (w * l) 0 = kSpec o B r (w * chord) Rhub Rtip p l 0 ∧
      kpSpec o B r chord Rhub Rtip p (w * l) 0 = kpSpec o B r (w * chord) Rhub Rtip p l 0 := by
  unfold kSpec kpSpec cnSpec ctSpec
  simp only [ite_self, zero_mul, add_zero, sub_zero]
  constructor <;> ring

private theorem raised_solvable {w : ℝ} (hw : 0 < w) (hw2 : w ≤ 2) {i : ℕ} (hi : i < 2) :
    Solvable ((swirlRotor 1).withAirfoils (raisedLift w)) 6 (30 / π) 0 0 i (1 / 1000000) := by
  have hpi := pi_gt_three
  have D := swirlRotor_solvable hw hw2 (pitch := 0) ⟨le_rfl, by norm_num⟩ hi
  have D1 := swirlRotor_solvable one_pos (by norm_num) (pitch := 0) ⟨le_rfl, by norm_num⟩ hi
  have hpol := fun p => raised_polar w 6 (30 / π) 0 i p
  have hpol' := fun p => swirlRotor_polar w 6 (30 / π) 0 0 i p
  simp only [zero_mul, sub_zero] at hpol'
  have hV : rotorWind ((swirlRotor 1).withAirfoils (raisedLift w)) 6 (30 / π) (0 * (π / 180)) i
      = rotorWind (swirlRotor w) 6 (30 / π) (0 * (π / 180)) i := rfl
  have A := D1.flow
  refine ⟨⟨A.blades, A.hub, A.inner, A.outer, A.chord, A.front, A.sense, ?_⟩, fun p h => ?_, D.start, ?_, by simp only [funext hpol]; fun_prop, ?_⟩
  · refine attachedFlow_of_constant_drag A.blades A.hub A.inner A.outer (fun a b c => ?_) fun _ => ⟨0, le_rfl, fun _ _ _ => by rw [hpol]⟩
    simp only [hpol]
    have := sin_le_sin_of_le_of_le_pi_div_two (by linarith) (by linarith) b
    gcongr
  · have g := D.guard p h
    unfold GuardFreeAngle at g ⊢
    rw [hpol'] at g
    rw [hpol]
    rw [raised_chord, ← (raised_k _ _ _ _ _ _ _ _ _).1] at g
    exact g
  · rw [hpol]
    have := neg_one_le_sin (1 / 1000000)
    exact mul_nonneg hw.le (by linarith)
  · have l := D.low
    rw [stationResidual_const rfl (.inr fun _ _ _ => rfl), hpol'] at l
    rw [stationResidual_const rfl (.inr fun _ _ _ => rfl), hpol, hV]
    rw [(indOut_eq _ _ _ _ _ _ _ _ _ _ _).2.2, raised_chord] at l
    rw [(indOut_eq _ _ _ _ _ _ _ _ _ _ _).2.2, (raised_k _ _ _ _ _ _ _ _ _).1, (raised_k _ _ _ _ _ _ _ _ _).2]
    exact l

/-- The hypotheses of `evaluate_lift` are met with wake rotation on as well. -/
example : ∃ o o' x x', (evaluate someRoot (swirlRotor 1) [⟨6, 30 / π, 0⟩] false).2 = .ok o ∧
    (evaluate someRoot ((swirlRotor 1).withAirfoils (raisedLift 2)) [⟨6, 30 / π, 0⟩] false).2 = .ok o' ∧ o.conds = [x] ∧ o'.conds = [x'] ∧
    (swirlRotor 1).opts.wakeRot = true ∧ x.acc.T.val < x'.acc.T.val ∧ x.acc.Mb.val < x'.acc.Mb.val := by
  have hpi := pi_gt_three
  have hO : 30 / π ≠ 0 := by positivity
  have hz : (0 : ℝ) ∈ Set.Icc (0 : ℝ) 10 := ⟨le_rfl, by norm_num⟩
  obtain ⟨o, x, h1, h2, -⟩ := evaluate_total someRoot_onlyValueError (swirlRotor 1) ⟨6, 30 / π, 0⟩ false
    (by simp [swirlRotor, featherRotor, annulusRotor, demoRotor]) rfl hO (by simp [swirlRotor, featherRotor, annulusRotor, demoRotor])
  obtain ⟨o', x', h1', h2', -⟩ := evaluate_total someRoot_onlyValueError ((swirlRotor 1).withAirfoils (raisedLift 2)) ⟨6, 30 / π, 0⟩ false
    (by simp [Rotor.withAirfoils, swirlRotor, featherRotor, annulusRotor, demoRotor]) rfl hO
    (by simp [Rotor.withAirfoils, swirlRotor, featherRotor, annulusRotor, demoRotor])
  refine ⟨o, o', x, x', h1, h1', h2, h2', rfl, ?_⟩
  have hs : ∀ phi ∈ Set.Ioo 0 (π / 2), 0 < sin phi := fun phi h => sin_pos_of_pos_of_lt_pi h.1 (by linarith [h.2])
  exact evaluate_lift someRoot someRoot_exact someRoot_crossing (swirlRotor 1) (raisedLift 2) _ o o' false h1 h1' 0 ⟨6, 30 / π, 0⟩ x x' rfl
    (by rw [h2]; rfl) (by rw [h2']; rfl) (swirlRotor_straight 1) rfl (fun _ _ => .inr fun _ _ _ => rfl) (fun _ _ => .inr fun _ _ _ => rfl)
    (by simp [swirlRotor, featherRotor, annulusRotor, demoRotor]) (by norm_num [swirlRotor, featherRotor, annulusRotor, demoRotor]) rfl hO
    (fun i _ phi hphi => by
      rw [raised_polar, swirlRotor_polar]
      simp only [zero_mul, sub_zero]
      exact ⟨by linarith [hs phi hphi], le_rfl⟩)
    (fun _ => 1 / 1000000) (fun _ => 1 / 1000000) (fun i hi => swirlRotor_solvable one_pos (by norm_num) hz hi)
    (fun i _ => by
      rw [swirlRotor_polar]
      simp only [zero_mul, sub_zero]
      linarith [hs (1 / 1000000) ⟨by norm_num, by linarith⟩])
    (fun i hi => raised_solvable (by norm_num) le_rfl hi) (fun _ i _ phi _ => by rw [raised_polar, swirlRotor_polar])
    fun _ k _ L hL i s hs => (swirlRotor_drives one_pos (by norm_num) hz _ (Prod.ext rfl hL) hs).2.1

end Verif
