import Verif.Props.Attached
import Verif.Props.Iterations
import Verif.Props.Twist

/-!
# More wind, more load (C113)
-/

namespace Verif

open Real

/-! ## The section -/

section
variable {o : BemOpts} {B : ℕ} {r chord Rhub Rtip : ℝ} {cl cd : ℝ → ℝ} {p q : ℝ}

/-- The residual vanishes where `tan φ/(1-a)` is the fraction of the inflow ratio that swirl leaves. -/
theorem section_root {Vx Vy : ℝ} (hB : 0 < B) (hRhub : 0 < Rhub) (h1 : Rhub < r) (h2 : r < Rtip) (hVy : 0 < Vy) (hp : 0 < p) (hp2 : p < π / 2)
    (hreg : RegularK (lossSpec o B r Rhub Rtip p) (kSpec o B r chord Rhub Rtip p (cl p) (cd p)))
    (hroot : (inductionFactors r chord Rhub Rtip p (cl p) (cd p) B Vx Vy o).fzero = 0) :
    sectionWake o B r chord Rhub Rtip cl cd p = Vx / Vy * (1 - sectionSwirl o B r chord Rhub Rtip cl cd p) := by
  have hc : 0 < cos p := cos_pos_of_mem_Ioo ⟨by linarith [pi_pos], hp2⟩
  rw [residual_side hB hRhub h1 h2 hVy hp hp2 hreg] at hroot
  have := (mul_eq_zero.mp hroot).resolve_left hc.ne'
  unfold sectionSide at this
  linarith

/-- At a larger inflow ratio the residual is negative up to the solution for the smaller one. -/
theorem section_below {Vx Vy Vx' Vy' : ℝ} (hB : 0 < B) (hRhub : 0 < Rhub) (h1 : Rhub < r) (h2 : r < Rtip) (hc : 0 < chord)
    (hVx : 0 < Vx) (hVy : 0 < Vy) (hVy' : 0 < Vy') (hV : Vx / Vy < Vx' / Vy') (hatt : AttachedFlow o B r Rhub Rtip cl cd)
    (hp : p ∈ Set.Ioo 0 (π / 2)) (hroot : (inductionFactors r chord Rhub Rtip p (cl p) (cd p) B Vx Vy o).fzero = 0)
    (hreg : RegularK (lossSpec o B r Rhub Rtip p) (kSpec o B r chord Rhub Rtip p (cl p) (cd p))) (hcl : 0 ≤ cl p)
    (hq : 0 < q) (hqp : q ≤ p) (hreg' : RegularK (lossSpec o B r Rhub Rtip q) (kSpec o B r chord Rhub Rtip q (cl q) (cd q))) :
    (inductionFactors r chord Rhub Rtip q (cl q) (cd q) B Vx' Vy' o).fzero < 0 := by
  have e := section_root hB hRhub h1 h2 hVy hp.1 hp.2 hreg hroot
  have hw0 := sectionWake_pos hB hRhub h1 h2 hc hatt hp.1 hp.2 hcl
  have hx : 0 < Vx / Vy := div_pos hVx hVy
  have hw : sectionWake o B r chord Rhub Rtip cl cd q ≤ sectionWake o B r chord Rhub Rtip cl cd p := by
    rcases hqp.eq_or_lt with rfl | h
    · exact le_rfl
    · exact (sectionWake_lt hB hRhub h1 h2 hc hatt hq h hp.2 hcl).le
  have hs := sectionSwirl_mono hB hRhub h1 h2 hc hatt hq hqp hp.2 hcl
  have hcq : 0 < cos q := cos_pos_of_mem_Ioo ⟨by linarith [pi_pos], hqp.trans_lt hp.2⟩
  rw [residual_side hB hRhub h1 h2 hVy' hq (hqp.trans_lt hp.2) hreg']
  refine mul_neg_of_pos_of_neg hcq ?_
  unfold sectionSide
  generalize sectionSwirl o B r chord Rhub Rtip cl cd q = S' at *
  generalize sectionSwirl o B r chord Rhub Rtip cl cd p = S at *
  generalize sectionWake o B r chord Rhub Rtip cl cd q = W' at *
  rw [e] at hw0 hw
  have hS : 0 < 1 - S := by
    by_contra h
    push Not at h
    nlinarith
  have h3 : Vx / Vy * (1 - S) < Vx' / Vy' * (1 - S) := mul_lt_mul_of_pos_right hV hS
  have h4 : Vx' / Vy' * (1 - S) ≤ Vx' / Vy' * (1 - S') := mul_le_mul_of_nonneg_left (by linarith) (hx.trans hV).le
  linarith

/-- **C113** In attached flow the inflow angle of a section rises with the ratio of its inflow components: with the wind, and as the
rotor slows down. -/
theorem inflow_rises {Vx Vy Vx' Vy' : ℝ} (hB : 0 < B) (hRhub : 0 < Rhub) (h1 : Rhub < r) (h2 : r < Rtip) (hc : 0 < chord)
    (hVx : 0 < Vx) (hVy : 0 < Vy) (hVy' : 0 < Vy') (hV : Vx / Vy < Vx' / Vy') (hatt : AttachedFlow o B r Rhub Rtip cl cd)
    (hp : p ∈ Set.Ioo 0 (π / 2)) (hroot : (inductionFactors r chord Rhub Rtip p (cl p) (cd p) B Vx Vy o).fzero = 0)
    (hreg : RegularK (lossSpec o B r Rhub Rtip p) (kSpec o B r chord Rhub Rtip p (cl p) (cd p))) (hcl : 0 ≤ cl p)
    (hq : q ∈ Set.Ioc 0 (π / 2)) (hroot' : (inductionFactors r chord Rhub Rtip q (cl q) (cd q) B Vx' Vy' o).fzero = 0)
    (hreg' : RegularK (lossSpec o B r Rhub Rtip q) (kSpec o B r chord Rhub Rtip q (cl q) (cd q))) : p < q := by
  by_contra h
  push Not at h
  linarith [section_below hB hRhub h1 h2 hc hVx hVy hVy' hV hatt hp hroot hreg hcl hq.1 h hreg']

/-- The relative speed at a solution. -/
theorem section_speed {Vx Vy : ℝ} (hB : 0 < B) (hRhub : 0 < Rhub) (h1 : Rhub < r) (h2 : r < Rtip) (hc : 0 < chord)
    (hVx : 0 < Vx) (hVy : 0 < Vy) (hatt : AttachedFlow o B r Rhub Rtip cl cd) (hp : p ∈ Set.Ioo 0 (π / 2))
    (hroot : (inductionFactors r chord Rhub Rtip p (cl p) (cd p) B Vx Vy o).fzero = 0)
    (hreg : RegularK (lossSpec o B r Rhub Rtip p) (kSpec o B r chord Rhub Rtip p (cl p) (cd p))) (hcl : 0 ≤ cl p) :
    let I := inductionFactors r chord Rhub Rtip p (cl p) (cd p) B Vx Vy o
    0 < 1 - sectionSwirl o B r chord Rhub Rtip cl cd p ∧
      relSpeed p I.a I.ap Vx Vy ^ 2 * cos p ^ 2 = (Vy / (1 - sectionSwirl o B r chord Rhub Rtip cl cd p)) ^ 2 := by
  intro I
  have hs : 0 < sin p := sin_pos_of_pos_of_lt_pi hp.1 (by linarith [hp.2, pi_pos])
  have hF := (lossSpec_range o B hB r Rhub Rtip p hRhub h1 h2 hp.1 (by linarith [hp.2, pi_pos])).1
  have e := section_root hB hRhub h1 h2 hVy hp.1 hp.2 hreg hroot
  have hw0 := sectionWake_pos hB hRhub h1 h2 hc hatt hp.1 hp.2 hcl
  have hx : 0 < Vx / Vy := div_pos hVx hVy
  have hS : 0 < 1 - sectionSwirl o B r chord Rhub Rtip cl cd p := by
    rw [e] at hw0
    exact (mul_pos_iff_of_pos_left hx).mp hw0
  have ha : I.a ≠ 1 := by
    intro ha
    have h3 := inv_axial_wake hp.1 hF hreg.1 hreg.2
    rw [← (indOut_eq r chord Rhub Rtip p (cl p) (cd p) B Vx Vy o).1] at h3
    rw [show (inductionFactors r chord Rhub Rtip p (cl p) (cd p) B Vx Vy o).a = 1 from ha] at h3
    have h4 : sectionWake o B r chord Rhub Rtip cl cd p = 0 := by
      unfold sectionWake
      simp only
      rw [← kSpec_forceK hB hRhub h1 h2 hp.1 hp.2, ← h3]
      simp
    linarith
  obtain ⟨hc0, hap, htri, -⟩ := root_triangle r chord Rhub Rtip p (cl p) (cd p) B Vx Vy o hVx.ne' hVy.ne' hp.1
    (by linarith [hp.2, pi_pos]) ha hroot
  rw [← sectionSwirl_eq hB hRhub h1 h2 hp.1 hp.2] at hap
  refine ⟨hS, ?_⟩
  rw [(relSpeed_sq p I.a I.ap Vx Vy hs.ne' hc0 htri).2]
  congr 1
  rw [eq_div_iff hS.ne', mul_assoc, hap, mul_one]

end

/-- Normal and tangential force at two inflow angles. -/
theorem forces_rise {p q g g' w w' l l' d d' : ℝ} (hp : 0 < p) (hpq : p < q) (hq : q < π / 2) (hg : 0 < g) (hgg : g ≤ g')
    (hw : w * cos p ^ 2 = g) (hw' : w' * cos q ^ 2 = g') (hl : 0 < l) (hll : l ≤ l') (hd : 0 ≤ d) (hdd : d ≤ d') :
    w * (l * cos p + d * sin p) < w' * (l' * cos q + d' * sin q) ∧
    (d' * l ≤ d * l' → 0 ≤ l * sin p - d * cos p → w * (l * sin p - d * cos p) < w' * (l' * sin q - d' * cos q)) := by
  have hpi := pi_pos
  have hcq : 0 < cos q := cos_pos_of_mem_Ioo ⟨by linarith, hq⟩
  have hcp : 0 < cos p := cos_pos_of_mem_Ioo ⟨by linarith, by linarith⟩
  have hc : cos q < cos p := cos_lt_cos_of_nonneg_of_le_pi_div_two hp.le hq.le hpq
  have ht0 : 0 < tan p := tan_pos_of_pos_of_lt_pi_div_two hp (by linarith)
  have ht : tan p < tan q := tan_lt_tan_of_nonneg_of_lt_pi_div_two hp.le hq hpq
  have es : ∀ {x}, 0 < cos x → sin x = cos x * tan x := fun h => by rw [tan_eq_sin_div_cos]; field_simp
  have ew : w = g / cos p ^ 2 := by rw [← hw]; field_simp
  have ew' : w' = g' / cos q ^ 2 := by rw [← hw']; field_simp
  have hi : g / cos p < g' / cos q := lt_of_lt_of_le (div_lt_div_of_pos_left hg hcq hc) (div_le_div_of_nonneg_right hgg hcq.le)
  have hi0 : 0 < g / cos p := div_pos hg hcp
  have e1 : ∀ x y u v : ℝ, 0 < cos u → x / cos u ^ 2 * (y * cos u + v * sin u) = x / cos u * (y + v * tan u) := by
    intro x y u v h
    rw [es h]
    field_simp
  have e2 : ∀ x y u v : ℝ, 0 < cos u → x / cos u ^ 2 * (y * sin u - v * cos u) = x / cos u * (y * tan u - v) := by
    intro x y u v h
    rw [es h]
    field_simp
  rw [ew, ew', e1 _ _ _ _ hcp, e1 _ _ _ _ hcq, e2 _ _ _ _ hcp, e2 _ _ _ _ hcq]
  constructor
  · refine mul_lt_mul hi ?_ (by positivity) (hi0.trans hi).le
    have := mul_le_mul hdd ht.le ht0.le (hd.trans hdd)
    linarith
  · intro hgl hT
    have hT' : 0 ≤ l * tan p - d := by
      rw [es hcp] at hT
      have : 0 ≤ cos p * (l * tan p - d) := by linarith
      exact (mul_nonneg_iff_of_pos_left hcp).mp this
    have key : l * tan p - d < l' * tan q - d' := by
      have a1 : l * (l' * tan q - d') ≥ l' * (l * tan q - d) := by nlinarith
      have a2 : l' * (l * tan q - d) > l' * (l * tan p - d) := by
        have := mul_lt_mul_of_pos_left ht hl
        exact mul_lt_mul_of_pos_left (by linarith) (by linarith)
      have a3 : l' * (l * tan p - d) ≥ l * (l * tan p - d) := mul_le_mul_of_nonneg_right hll hT'
      exact lt_of_mul_lt_mul_left (by linarith) hl.le
    exact mul_lt_mul' hi.le key hT' (hi0.trans hi) 

/-! ## Specification -/

/-- Drag, in the residual or not, is not negative and does not fall as the inflow angle rises, and the ratio of drag to lift does not
rise. -/
structure DragPolar (cl cd : ℝ → ℝ) : Prop where
  drag : ∀ {p q}, 0 < p → p ≤ q → q ≤ π / 2 → 0 ≤ cd p ∧ cd p ≤ cd q
  glide : ∀ {p q}, 0 < p → p ≤ q → q ≤ π / 2 → cd q * cl p ≤ cd p * cl q

/-- The coefficients of station `i` are those at the Reynolds number of the undisturbed wind: the loop over the Reynolds number runs
once (`iterRe = 1`, the default), or the airfoil ignores the Reynolds number. -/
def FixedRe (R : Rotor ℝ) (i : ℕ) : Prop := R.iterRe = 1 ∨ (R.af i).ReIndependent

/-! ## The station -/

section
variable {R : Rotor ℝ} {Uinf Uinf' Omega pitch az az' : ℝ} {i : ℕ}

theorem stationPolar_const (hre : (R.af i).ReIndependent) (Omega' : ℝ) (phi : ℝ) :
    stationPolar R Uinf' Omega' pitch az' i phi = stationPolar R Uinf Omega pitch az i phi := hre _ _ _

theorem stationResidual_const (hinv : R.inv = none) (hre : FixedRe R i) (phi : ℝ) :
    stationResidual R Uinf Omega pitch az i phi = (inductionFactors (R.r i) (R.chord i) R.Rhub R.Rtip phi
      (stationPolar R Uinf Omega pitch az i phi).1 (stationPolar R Uinf Omega pitch az i phi).2 R.B
      (rotorWind R Uinf Omega (az * (π / 180)) i).1 (rotorWind R Uinf Omega (az * (π / 180)) i).2 R.opts).fzero := by
  rcases hre with hit | hre
  · exact stationResidual_polar hinv hit phi
  have h := stationResidual_polar (R := R.iters 1) (Uinf := Uinf) (Omega := Omega) (pitch := pitch) (az := az) (i := i) hinv rfl phi
  refine Eq.trans ?_ h
  have e : ∀ T : Rotor ℝ, T.inv = none → stationResidual T Uinf Omega pitch az i = errFun T (deg2rad pitch)
      ⟨T.r i, T.chord i, T.theta i, T.af i, (rotorWind T Uinf Omega (deg2rad az) i).1, (rotorWind T Uinf Omega (deg2rad az) i).2⟩ := by
    intro T hT
    funext x
    simp only [stationResidual, hT]
  rw [e R hinv, e (R.iters 1) hinv]
  exact congrFun (errFun_iters (x := ⟨R.r i, R.chord i, R.theta i, R.af i, _, _⟩) hre R R.iterRe 1 _) phi

/-- Coefficients and speed behind the loads of a station. -/
theorem station_facts {bq : RootFinder ℝ} (hinv : R.inv = none) (hre : FixedRe R i) {R' : Rotor ℝ} {L : LoadsOut ℝ}
    (h : distributedAeroLoads bq R Uinf Omega pitch az = (R', .ok L)) (hO : Omega ≠ 0) {s : Station ℝ} (hs : L.stations[i]? = some s)
    {Vx Vy : ℝ} (hV : rotorWind R Uinf Omega (az * (π / 180)) i = (Vx, Vy)) (hVx : Vx ≠ 0) (hVy : Vy ≠ 0) :
    let P := stationPolar R Uinf Omega pitch az i s.phi
    let I := inductionFactors (R.r i) (R.chord i) R.Rhub R.Rtip s.phi P.1 P.2 R.B Vx Vy R.opts
    s.loads.cl = P.1 ∧ s.loads.cd = P.2 ∧ s.loads.W = relSpeed s.phi I.a I.ap Vx Vy ∧
      s.loads.alpha * (π / 180) = s.phi - (R.theta i + pitch * (π / 180)) := by
  intro P I
  obtain ⟨d, -, hth, h3, -, -⟩ := solveStation_real (loads_station h hs).2
  have hth' : s.theta = R.theta i := by rw [hth]; simp [stationTheta, hinv]
  obtain ⟨ha, Re, hc⟩ := distributedAeroLoads_coefficients bq R R' Uinf Omega pitch az L h i s hs (by rw [hV]; exact ⟨hVx, hVy⟩)
  obtain ⟨i1, i2⟩ := loads_induction h hs hO hV hVx hVy
  have hW : s.loads.W = relSpeed s.phi s.loads.a s.loads.ap Vx Vy := by
    simp only [real_deg2rad] at h3
    rcases secLoads_ok h3 with ⟨-, -, hl, -⟩ | ⟨h0, -⟩
    · rw [hl]
      simp only [secValues, stationSec, relativeWind, hV]
    · exact absurd h0 (by simp only [stationSec, hV, not_or]; exact ⟨hVx, hVy⟩)
  have ha' : s.loads.alpha * (π / 180) = s.phi - (R.theta i + pitch * (π / 180)) := by rw [ha, hth']; ring
  have hc' : (s.loads.cl, s.loads.cd) = P := by
    rcases hre with hit | hre
    · have hW0 : relSpeed s.phi 0 0 Vx Vy = √(Vx ^ 2 + Vy ^ 2) := by
        have h : ¬ (10 : ℝ) < 0 := by norm_num
        simp [relSpeed, num_real, sq, h, pow_two]
      simp only [real_deg2rad] at h3
      rcases secLoads_ok h3 with ⟨-, -, hl, -⟩ | ⟨h0, -⟩
      · rw [hl]
        simp only [secValues, stationSec, hV, hth', runBEM, hit, Nat.sub_self, bemPasses, bemPass, relativeWind, hW0, P, stationPolar, stationRe]
        rw [if_pos (by simpa using hO), if_pos (by simpa using hO)]
      · exact absurd h0 (by simp only [stationSec, hV, not_or]; exact ⟨hVx, hVy⟩)
    · rw [ha'] at hc
      exact hc.trans (hre _ _ _)
  have h1 : s.loads.cl = P.1 := congrArg Prod.fst hc'
  have h2 : s.loads.cd = P.2 := congrArg Prod.snd hc'
  refine ⟨h1, h2, ?_, ha'⟩
  rw [hW, i1, i2, h1, h2]

/-- **C113** A station in attached flow, whose airfoil ignores the Reynolds number, before and after the wind has risen (at an
unchanged tangential inflow): inflow angle, angle of attack and normal force have risen, and so has the tangential force if it drove
the rotor. The angle stays below 90°. -/
theorem station_rises (bq : RootFinder ℝ) (hbq : ExactRoots bq) (hinv : R.inv = none) (hre : (R.af i).ReIndependent) (hO : Omega ≠ 0)
    (hrho : 0 < R.rho) (hatt : AttachedStation R Uinf Omega pitch az i)
    (hdrag : DragPolar (fun p => (stationPolar R Uinf Omega pitch az i p).1) (fun p => (stationPolar R Uinf Omega pitch az i p).2))
    (hwind : (rotorWind R Uinf Omega (az * (π / 180)) i).1 < (rotorWind R Uinf' Omega (az' * (π / 180)) i).1)
    (hsame : (rotorWind R Uinf Omega (az * (π / 180)) i).2 = (rotorWind R Uinf' Omega (az' * (π / 180)) i).2) (R1 R2 : Rotor ℝ)
    (L L' : LoadsOut ℝ) (h : distributedAeroLoads bq R Uinf Omega pitch az = (R1, .ok L))
    (h' : distributedAeroLoads bq R Uinf' Omega pitch az' = (R2, .ok L')) (s s' : Station ℝ) (hs : L.stations[i]? = some s)
    (hs' : L'.stations[i]? = some s') (hw : s.warned = false) (hw' : s'.warned = false) (hphi : s.phi ∈ Set.Ioo 0 (π / 2))
    (hcl : 0 < s.loads.cl) (hreg : ∀ p, p = 1 / 1000000 ∨ p = π / 2 ∨ p = s.phi ∨ p = s'.phi → RegularAngle R Uinf Omega pitch az i p) :
    s.phi < s'.phi ∧ s'.phi < π / 2 ∧ s.loads.alpha < s'.loads.alpha ∧ s.loads.Np < s'.loads.Np ∧
      (0 ≤ s.loads.Tp → s.loads.Tp < s'.loads.Tp) := by
  have hpi := pi_gt_three
  obtain ⟨Vx, Vy, hV⟩ : ∃ Vx Vy, rotorWind R Uinf Omega (az * (π / 180)) i = (Vx, Vy) := ⟨_, _, rfl⟩
  obtain ⟨Vx', Vy', hV'⟩ : ∃ Vx Vy, rotorWind R Uinf' Omega (az' * (π / 180)) i = (Vx, Vy) := ⟨_, _, rfl⟩
  have hVx := hatt.front
  have hVy := hatt.sense
  rw [hV, hV'] at hwind hsame
  rw [hV] at hVx hVy
  simp only at hwind hsame hVx hVy
  subst hsame
  have hVx' : 0 < Vx' := hVx.trans hwind
  have hratio : Vx / Vy < Vx' / Vy := div_lt_div_of_pos_right hwind hVy
  set cl := fun p => (stationPolar R Uinf Omega pitch az i p).1 with hcldef
  set cd := fun p => (stationPolar R Uinf Omega pitch az i p).2 with hcddef
  have e : ∀ p, stationResidual R Uinf Omega pitch az i p
      = (inductionFactors (R.r i) (R.chord i) R.Rhub R.Rtip p (cl p) (cd p) R.B Vx Vy R.opts).fzero := by
    intro p
    rw [stationResidual_const hinv (.inr hre), hV]
  have e' : ∀ p, stationResidual R Uinf' Omega pitch az' i p
      = (inductionFactors (R.r i) (R.chord i) R.Rhub R.Rtip p (cl p) (cd p) R.B Vx' Vy R.opts).fzero := by
    intro p
    rw [stationResidual_const hinv (.inr hre), hV', stationPolar_const (Uinf := Uinf) (Omega := Omega) (az := az) hre]
  obtain ⟨f1, f2, f3, f4⟩ := station_facts hinv (.inr hre) h hO hs hV hVx.ne' hVy.ne'
  obtain ⟨g1, g2, g3, g4⟩ := station_facts hinv (.inr hre) h' hO hs' hV' hVx'.ne' hVy.ne'
  rw [stationPolar_const (Uinf := Uinf) (Omega := Omega) (az := az) hre] at g1 g2 g3
  obtain ⟨z, l, u⟩ := exact_interval hbq h hO hs hw
  obtain ⟨z', l', u'⟩ := exact_interval hbq h' hO hs' hw'
  rw [e] at z
  rw [e'] at z'
  have hcl' : 0 < cl s.phi := by rw [← show s.loads.cl = cl s.phi from f1]; exact hcl
  have r0 := hreg _ (.inl rfl)
  have r1 := hreg _ (.inr (.inl rfl))
  have r2 := hreg _ (.inr (.inr (.inl rfl)))
  have r3 := hreg _ (.inr (.inr (.inr rfl)))
  -- the interval of the first search
  have hlo : 1 / 1000000 ≤ s.phi := by
    have hb := bracket_searchInterval (stationResidual R Uinf Omega pitch az i)
    simp only [SearchInterval, num_real] at hb
    push_cast at hb
    obtain ⟨p0, p1⟩ := hphi
    rcases hb with hb | hb | hb <;> rw [hb] at l u <;> simp only at l u
    · exact l
    · linarith
    · linarith
  -- the interval of the second
  have hb' : bracket (stationResidual R Uinf' Omega pitch az' i) = (1 / 1000000, π / 2) := by
    refine (bracket_choice _).1 (mul_neg_of_neg_of_pos ?_ ?_).le
    · rw [e']
      exact section_below hatt.blades hatt.hub hatt.inner hatt.outer hatt.chord hVx hVy hVy hratio hatt.flow hphi z r2 hcl'.le (by norm_num) hlo r0
    · rw [e']
      exact residual_end hatt.blades hatt.hub hatt.inner hatt.outer hatt.chord hatt.flow r1
  rw [hb'] at l' u'
  simp only at l' u'
  have hpos : 0 < s'.phi := lt_of_lt_of_le (by norm_num) l'
  have hlt : s.phi < s'.phi := inflow_rises hatt.blades hatt.hub hatt.inner hatt.outer hatt.chord hVx hVy hVy hratio hatt.flow hphi z r2
    hcl'.le ⟨hpos, u'⟩ z' r3
  have hq : s'.phi < π / 2 := by
    refine lt_of_le_of_ne u' fun heq => ?_
    have := residual_end (Vx := Vx') (Vy := Vy) hatt.blades hatt.hub hatt.inner hatt.outer hatt.chord hatt.flow r1
    rw [heq] at z'
    linarith
  have hll := hatt.flow.lift hphi.1 hlt.le hq.le
  have hclq : 0 < cl s'.phi := hcl'.trans_le hll
  obtain ⟨t1, t2⟩ := section_speed hatt.blades hatt.hub hatt.inner hatt.outer hatt.chord hVx hVy hatt.flow hphi z r2 hcl'.le
  obtain ⟨t1', t2'⟩ := section_speed hatt.blades hatt.hub hatt.inner hatt.outer hatt.chord hVx' hVy hatt.flow ⟨hpos, hq⟩ z' r3 hclq.le
  have hsw := sectionSwirl_mono hatt.blades hatt.hub hatt.inner hatt.outer hatt.chord hatt.flow hphi.1 hlt.le hq hclq.le
  rw [← show s.loads.W = _ from f3] at t2
  rw [← show s'.loads.W = _ from g3] at t2'
  have hgg : (Vy / (1 - sectionSwirl R.opts R.B (R.r i) (R.chord i) R.Rhub R.Rtip cl cd s.phi)) ^ 2
      ≤ (Vy / (1 - sectionSwirl R.opts R.B (R.r i) (R.chord i) R.Rhub R.Rtip cl cd s'.phi)) ^ 2 := by
    refine pow_le_pow_left₀ (by positivity) ?_ 2
    exact div_le_div_of_nonneg_left hVy.le t1' (by linarith)
  obtain ⟨n1, n2⟩ := forces_rise hphi.1 hlt hq (by positivity) hgg t2 t2' hcl' hll (hdrag.drag hphi.1 le_rfl hphi.2.le).1
    (hdrag.drag hphi.1 hlt.le hq.le).2
  obtain ⟨a1, a2, a3, -⟩ := distributedAeroLoads_forces bq R R1 _ _ _ _ L h i s hs
  obtain ⟨b1, b2, b3, -⟩ := distributedAeroLoads_forces bq R R2 _ _ _ _ L' h' i s' hs'
  have hK : 0 < R.rho / 2 * R.chord i := mul_pos (by linarith) hatt.chord
  refine ⟨hlt, hq, ?_, ?_, fun hT => ?_⟩
  · have : s.loads.alpha * (π / 180) < s'.loads.alpha * (π / 180) := by rw [f4, g4]; linarith
    exact lt_of_mul_lt_mul_right this (by positivity)
  · rw [a2, b2, a1, b1, f1, f2, g1, g2]
    have := mul_lt_mul_of_pos_left n1 hK
    refine lt_of_eq_of_lt ?_ (lt_of_lt_of_eq this ?_) <;> simp only [hcldef, hcddef] <;> ring
  · rw [a3, a1, f1, f2] at hT
    rw [a3, b3, a1, b1, f1, f2, g1, g2]
    have hW : 0 < s.loads.W ^ 2 := by
      have h3 : 0 < s.loads.W ^ 2 * cos s.phi ^ 2 := by rw [t2]; positivity
      exact pos_of_mul_pos_left h3 (sq_nonneg _)
    have hT' : 0 ≤ cl s.phi * sin s.phi - cd s.phi * cos s.phi := by
      have h3 : 0 < R.rho * s.loads.W ^ 2 / 2 * R.chord i := by have := hatt.chord; positivity
      exact (mul_nonneg_iff_of_pos_left h3).mp hT
    have := mul_lt_mul_of_pos_left (n2 (hdrag.glide hphi.1 hlt.le hq.le) hT') hK
    refine lt_of_eq_of_lt ?_ (lt_of_lt_of_eq this ?_) <;> simp only [hcldef, hcddef] <;> ring

end

/-! ## The rotor -/

/-- The padded stations of a straight blade lie on a line. -/
theorem StraightRotor.padded_inc {R : Rotor ℝ} (G : StraightRotor R) :
    ∀ i, i + 1 < R.n + 2 → padded R.n R.Rhub R.r R.Rtip i < padded R.n R.Rhub R.r R.Rtip (i + 1) := by
  intro l hl
  simp only [padded]
  by_cases h0 : l = 0
  · subst h0
    have h3 : ¬ R.n = 0 := by have := G.n; omega
    simp [h3, G.first]
  · by_cases h1 : l = R.n
    · subst h1
      have h3 : ¬ R.n = R.n + 1 := by omega
      simp [h0, G.last]
    · have h3 : ¬ l = R.n + 1 := by omega
      have := G.inc (l - 1) (by omega)
      rw [show l - 1 + 1 = l by omega] at this
      simp [h0, h1, h3, this]

/-- The blade integral of a larger load is larger. -/
theorem StraightRotor.integral_lt {R : Rotor ℝ} (G : StraightRotor R) {f g : ℕ → ℝ} (hfg : ∀ i < R.n, f i < g i) :
    trapz (R.n + 1) (padded R.n 0 f 0) (defineCurvature (R.n + 2) (padded R.n R.Rhub R.r R.Rtip) (padded R.n 0 R.precurve R.precurveTip)
      (padded R.n 0 R.presweep R.presweepTip) R.precone).s <
    trapz (R.n + 1) (padded R.n 0 g 0) (defineCurvature (R.n + 2) (padded R.n R.Rhub R.r R.Rtip) (padded R.n 0 R.precurve R.precurveTip)
      (padded R.n 0 R.presweep R.presweepTip) R.precone).s := by
  have hinc := G.padded_inc
  set q := padded R.n R.Rhub R.r R.Rtip with hq
  have hn := G.n
  have hle : ∀ i, padded R.n 0 f 0 i ≤ padded R.n 0 g 0 i ∨ R.n + 2 ≤ i := by
    intro i
    simp only [padded]
    split_ifs with h0 h1
    · exact .inl le_rfl
    · exact .inl le_rfl
    · by_cases h2 : i - 1 < R.n
      · exact .inl (hfg _ h2).le
      · exact .inr (by omega)
  have hds : ∀ i, i < R.n + 1 → 0 < (defineCurvature (R.n + 2) q (padded R.n 0 R.precurve R.precurveTip)
      (padded R.n 0 R.presweep R.presweepTip) R.precone).s (i + 1) - (defineCurvature (R.n + 2) q (padded R.n 0 R.precurve R.precurveTip)
      (padded R.n 0 R.presweep R.presweepTip) R.precone).s i := by
    intro i hi
    have h1 := hinc i (by omega)
    simp only [defineCurvature, pathLength, segLength, num_real, add_sub_cancel_left]
    refine Real.sqrt_pos.mpr ?_
    have : 0 < (q (i + 1) - q i) ^ 2 := by have : 0 < q (i + 1) - q i := by linarith
                                           positivity
    positivity
  simp only [trapz, num_real]
  refine Finset.sum_lt_sum (fun i hi => ?_) ⟨1, Finset.mem_range.mpr (by omega), ?_⟩
  · rw [Finset.mem_range] at hi
    refine mul_le_mul_of_nonneg_right ?_ (hds i hi).le
    refine mul_le_mul_of_nonneg_left ?_ (by norm_num)
    exact add_le_add ((hle i).resolve_right (by omega)) ((hle (i + 1)).resolve_right (by omega))
  · refine mul_lt_mul_of_pos_right ?_ (hds 1 (by omega))
    refine mul_lt_mul_of_pos_left ?_ (by norm_num)
    refine add_lt_add_of_lt_of_le ?_ ((hle (1 + 1)).resolve_right (by omega))
    have h3 : ¬ (1 = R.n + 1) := by omega
    simp only [padded, one_ne_zero, if_false, if_neg h3]
    exact hfg _ (by omega)

/-- Thrust, torque and flap moment of a straight blade as integrals of one load. -/
theorem StraightRotor.blade_integrals {R : Rotor ℝ} (G : StraightRotor R) (L : LoadsOut ℝ) :
    let S := (defineCurvature (R.n + 2) (padded R.n R.Rhub R.r R.Rtip) (padded R.n 0 R.precurve R.precurveTip)
      (padded R.n 0 R.presweep R.presweepTip) R.precone).s
    (bladeInt R L).T = trapz (R.n + 1) (padded R.n 0 (fun i => stationArr L.stations SecLoads.Np i * cos R.precone) 0) S ∧
    (bladeInt R L).Q = trapz (R.n + 1) (padded R.n 0 (fun i => stationArr L.stations SecLoads.Tp i * (R.r i * cos R.precone)) 0) S ∧
    (bladeInt R L).M = trapz (R.n + 1) (padded R.n 0 (fun i => stationArr L.stations SecLoads.Np i * (R.r i * cos R.precone)) 0) S := by
  have hpi := pi_pos
  have hca := abs_lt.mp G.cone
  intro S
  have hcone : ∀ j < R.n + 2, (defineCurvature (R.n + 2) (padded R.n R.Rhub R.r R.Rtip) (padded R.n 0 R.precurve R.precurveTip)
      (padded R.n 0 R.presweep R.presweepTip) R.precone).cone j = R.precone := by
    intro j hj
    refine cone_of_straight_blade (R.n + 2) (by omega) _ _ _ _ ⟨by linarith, by linarith⟩ G.padded_inc ?_ j hj
    intro l _
    simp only [padded, G.curve, G.curveTip]
    split_ifs <;> rfl
  refine ⟨?_, ?_, ?_⟩
  · simp only [bladeInt, thrustTorque, trapz, num_real]
    refine Finset.sum_congr rfl fun i hi => ?_
    rw [Finset.mem_range] at hi
    rw [hcone i (by omega), hcone (i + 1) (by omega)]
    congr 2
    simp only [padded]
    split_ifs <;> ring
  · simp only [bladeInt, thrustTorque]
    congr 1
    funext i
    simp only [defineCurvature, zAz, padded, G.curve, num_real]
    split_ifs <;> ring
  · simp only [bladeInt, thrustTorque]
    congr 1
    funext i
    simp only [defineCurvature, zAz, padded, G.curve, num_real]
    split_ifs <;> ring

/-- Lift and drag coefficient of station `i` over the inflow angle, for an airfoil that ignores the Reynolds number. -/
noncomputable def pitchedPolar (R : Rotor ℝ) (pitch : ℝ) (i : ℕ) (phi : ℝ) : ℝ × ℝ :=
  (R.af i).evaluate (phi - (R.theta i + pitch * (π / 180))) 0

/-- Neither division by zero nor the guard of Buhl's formula at an inflow angle. -/
def RegularPitched (R : Rotor ℝ) (pitch : ℝ) (i : ℕ) (phi : ℝ) : Prop :=
  RegularK (lossSpec R.opts R.B (R.r i) R.Rhub R.Rtip phi)
    (kSpec R.opts R.B (R.r i) (R.chord i) R.Rhub R.Rtip phi (pitchedPolar R pitch i phi).1 (pitchedPolar R pitch i phi).2)

theorem stationPolar_pitched {R : Rotor ℝ} {i : ℕ} (hre : (R.af i).ReIndependent) (Uinf Omega pitch az : ℝ) :
    stationPolar R Uinf Omega pitch az i = pitchedPolar R pitch i := funext fun _ => hre _ _ _

theorem mean_lt {ns : ℕ} (hns : 0 < ns) {f g : ℕ → ℝ} (h : ∀ k < ns, f k < g k) :
    (∑ k ∈ Finset.range ns, f k) / ns < (∑ k ∈ Finset.range ns, g k) / ns := by
  refine div_lt_div_of_pos_right ?_ (by exact_mod_cast hns)
  exact Finset.sum_lt_sum_of_nonempty ⟨0, Finset.mem_range.mpr hns⟩ fun k hk => h k (Finset.mem_range.mp hk)

/-- **C113** Two conditions of one call of `evaluate` that differ in the wind speed only, a straight rotor in axial wind, attached flow
at every station (solved, and with lift at the lower speed): thrust and blade root moment are larger at the higher speed, and torque
and power are if every station drove the rotor at the lower one. -/
theorem evaluate_rises (bq : RootFinder ℝ) (hbq : ExactRoots bq) (R : Rotor ℝ) (cs : List (Cond ℝ)) (o : EvalOut ℝ) (co : Bool)
    (h : (evaluate bq R cs co).2 = .ok o) (m m' : ℕ) (c c' : Cond ℝ) (x x' : CondOut ℝ) (hc : cs[m]? = some c) (hx : o.conds[m]? = some x)
    (hc' : cs[m']? = some c') (hx' : o.conds[m']? = some x') (G : StraightRotor R) (hinv : R.inv = none)
    (hre : ∀ i < R.n, (R.af i).ReIndependent) (hB : 0 < R.B) (hns : 0 < R.nSector) (hrho : 0 < R.rho) (hchord : ∀ i < R.n, 0 < R.chord i)
    (hU : 0 < c.Uinf) (hUU : c.Uinf < c'.Uinf) (hO : 0 < c.Omega) (hOO : c'.Omega = c.Omega) (hpp : c'.pitch = c.pitch)
    (hflow : ∀ i < R.n, AttachedFlow R.opts R.B (R.r i) R.Rhub R.Rtip (fun p => (pitchedPolar R c.pitch i p).1) (fun p => (pitchedPolar R c.pitch i p).2))
    (hdrag : ∀ i < R.n, DragPolar (fun p => (pitchedPolar R c.pitch i p).1) (fun p => (pitchedPolar R c.pitch i p).2))
    (hend : ∀ i < R.n, RegularPitched R c.pitch i (1 / 1000000) ∧ RegularPitched R c.pitch i (π / 2))
    (hlow : ∀ k < R.nSector, ∀ L, (distributedAeroLoads bq R c.Uinf c.Omega c.pitch (k * (360 / R.nSector))).2 = .ok L →
      ∀ i s, L.stations[i]? = some s → s.warned = false ∧ s.phi ∈ Set.Ioo 0 (π / 2) ∧ 0 < s.loads.cl ∧ RegularPitched R c.pitch i s.phi)
    (hhigh : ∀ k < R.nSector, ∀ L, (distributedAeroLoads bq R c'.Uinf c'.Omega c'.pitch (k * (360 / R.nSector))).2 = .ok L →
      ∀ i s, L.stations[i]? = some s → s.warned = false ∧ RegularPitched R c.pitch i s.phi) :
    x.acc.T.val < x'.acc.T.val ∧ x.acc.Mb.val < x'.acc.Mb.val ∧
    ((∀ k < R.nSector, ∀ L, (distributedAeroLoads bq R c.Uinf c.Omega c.pitch (k * (360 / R.nSector))).2 = .ok L →
      ∀ (i : ℕ) (s : Station ℝ), L.stations[i]? = some s → 0 ≤ s.loads.Tp) → x.acc.Q.val < x'.acc.Q.val ∧ x.P.val < x'.P.val) := by
  obtain ⟨L, hL, hT, hQ, hM, -⟩ := sector_averages h hc hx
  obtain ⟨L', hL', hT', hQ', hM', -⟩ := sector_averages h hc' hx'
  have hP := (evaluate_entry h hc hx).2.1
  have hP' := (evaluate_entry h hc' hx').2.1
  rw [hOO, hpp] at hL' hhigh
  have hcos := G.cos_pos
  have hpi := pi_pos
  have hBr : (0 : ℝ) < R.B := by exact_mod_cast hB
  have key : ∀ k < R.nSector, ∀ i < R.n, ∃ s s' : Station ℝ, (L k).stations[i]? = some s ∧ (L' k).stations[i]? = some s' ∧ s.loads.Np < s'.loads.Np ∧
      (0 ≤ s.loads.Tp → s.loads.Tp < s'.loads.Tp) := by
    intro k hk i hi
    obtain ⟨R1, e1⟩ : ∃ R', distributedAeroLoads bq R c.Uinf c.Omega c.pitch (k * (360 / R.nSector)) = (R', .ok (L k)) :=
      ⟨_, Prod.ext rfl (hL k hk)⟩
    obtain ⟨R2, e2⟩ : ∃ R', distributedAeroLoads bq R c'.Uinf c.Omega c.pitch (k * (360 / R.nSector)) = (R', .ok (L' k)) :=
      ⟨_, Prod.ext rfl (hL' k hk)⟩
    obtain ⟨s, hs⟩ : ∃ s, (L k).stations[i]? = some s :=
      ⟨_, List.getElem?_eq_getElem (by rw [(solveStations_ok (distributedAeroLoads_stations e1)).1]; exact hi)⟩
    obtain ⟨s', hs'⟩ : ∃ s, (L' k).stations[i]? = some s :=
      ⟨_, List.getElem?_eq_getElem (by rw [(solveStations_ok (distributedAeroLoads_stations e2)).1]; exact hi)⟩
    obtain ⟨w, hphi, hcl, r2⟩ := hlow k hk _ (hL k hk) i s hs
    obtain ⟨w', r3⟩ := hhigh k hk _ (hL' k hk) i s' hs'
    obtain ⟨r0, r1⟩ := hend i hi
    have hV := G.wind c.Uinf c.Omega (k * (360 / R.nSector) * (π / 180)) hi
    have hV' := G.wind c'.Uinf c.Omega (k * (360 / R.nSector) * (π / 180)) hi
    have hr := G.range hi
    have hri : 0 < R.r i := G.hub.trans hr.1
    have epol := stationPolar_pitched (hre i hi) c.Uinf c.Omega c.pitch (k * (360 / R.nSector))
    have ereg : ∀ p, RegularPitched R c.pitch i p → RegularAngle R c.Uinf c.Omega c.pitch (k * (360 / R.nSector)) i p := by
      intro p hp
      unfold RegularAngle
      rw [epol]
      exact hp
    have hatt : AttachedStation R c.Uinf c.Omega c.pitch (k * (360 / R.nSector)) i :=
      ⟨hB, G.hub, hr.1, hr.2, hchord i hi, by rw [hV]; positivity, by rw [hV]; positivity, by rw [epol]; exact hflow i hi⟩
    obtain ⟨-, -, -, n, t⟩ := station_rises bq hbq hinv (hre i hi) hO.ne' hrho hatt (by rw [epol]; exact hdrag i hi)
      (by rw [hV, hV']; exact mul_lt_mul_of_pos_right hUU hcos) (by rw [hV, hV']) R1 R2 _ _ e1 e2 s s' hs hs' w w' hphi hcl
      (fun p hp => ereg p (by rcases hp with rfl | rfl | rfl | rfl <;> assumption))
    exact ⟨s, s', hs, hs', n, t⟩
  have arr : ∀ {l : List (Station ℝ)} {i : ℕ} {s : Station ℝ} (f : SecLoads ℝ → ℝ), l[i]? = some s → stationArr l f i = f s.loads := by
    intro l i s f hs
    simp [stationArr, hs]
  have hQlt : (∀ k < R.nSector, ∀ L, (distributedAeroLoads bq R c.Uinf c.Omega c.pitch (k * (360 / R.nSector))).2 = .ok L →
      ∀ (i : ℕ) (s : Station ℝ), L.stations[i]? = some s → 0 ≤ s.loads.Tp) → x.acc.Q.val < x'.acc.Q.val := by
    intro hdrive
    rw [hQ, hQ']
    refine mul_lt_mul_of_pos_left (mean_lt hns fun k hk => ?_) hBr
    simp only
    rw [(G.blade_integrals (L k)).2.1, (G.blade_integrals (L' k)).2.1]
    refine G.integral_lt fun i hi => ?_
    obtain ⟨s, s', hs, hs', -, t⟩ := key k hk i hi
    rw [arr SecLoads.Tp hs, arr SecLoads.Tp hs']
    exact mul_lt_mul_of_pos_right (t (hdrive k hk _ (hL k hk) i s hs)) (mul_pos (G.hub.trans (G.range hi).1) hcos)
  refine ⟨?_, ?_, fun hdrive => ⟨hQlt hdrive, ?_⟩⟩
  · rw [hT, hT']
    refine mul_lt_mul_of_pos_left (mean_lt hns fun k hk => ?_) hBr
    simp only
    rw [(G.blade_integrals (L k)).1, (G.blade_integrals (L' k)).1]
    refine G.integral_lt fun i hi => ?_
    obtain ⟨s, s', hs, hs', n, -⟩ := key k hk i hi
    rw [arr SecLoads.Np hs, arr SecLoads.Np hs']
    exact mul_lt_mul_of_pos_right n hcos
  · rw [hM, hM']
    refine mean_lt hns fun k hk => ?_
    simp only
    rw [(G.blade_integrals (L k)).2.2, (G.blade_integrals (L' k)).2.2]
    refine G.integral_lt fun i hi => ?_
    obtain ⟨s, s', hs, hs', n, -⟩ := key k hk i hi
    rw [arr SecLoads.Np hs, arr SecLoads.Np hs']
    exact mul_lt_mul_of_pos_right n (mul_pos (G.hub.trans (G.range hi).1) hcos)
  · rw [hP, hP', hOO]
    simp only [power, num_real]
    have := hQlt hdrive
    gcongr

/-! ## Stall -/

/-- **C113** Without attached flow the claim is false: a section that stalls loses its normal force as the wind rises from 6 to 18 m/s,
although both stations are solved without a warning. -/
theorem stalled_load_falls (bq : RootFinder ℝ) (hbq : FindsRoots bq) (az : ℝ) (R1 R2 : Rotor ℝ) (L L' : LoadsOut ℝ)
    (h : distributedAeroLoads bq foldRotor 6 (30 / π) 0 az = (R1, .ok L)) (h' : distributedAeroLoads bq foldRotor 18 (30 / π) 0 az = (R2, .ok L'))
    (s s' : Station ℝ) (hs : L.stations[0]? = some s) (hs' : L'.stations[0]? = some s') :
    s.warned = false ∧ s'.warned = false ∧ s'.loads.Np < s.loads.Np := by
  obtain ⟨w, t, t0, rfl, p0, p1, ht, hN⟩ := foldRotor_station hbq (by norm_num) h hs
  obtain ⟨w', t', t0', rfl, p0', p1', ht', hN'⟩ := foldRotor_station hbq (by norm_num) h' hs'
  refine ⟨w, w', ?_⟩
  simp only [stationK, if_true, Nat.cast_zero, mul_zero, add_zero] at ht ht' hN hN'
  have hrho : (0 : ℝ) < foldRotor.rho := by norm_num [foldRotor, annulusRotor, demoRotor]
  have hpi := pi_pos
  obtain ⟨k0, k1⟩ := foldK_range s.phi
  obtain ⟨k0', k1'⟩ := foldK_range s'.phi
  have e := foldK_eq p0.le p1
  have e' := foldK_eq p0'.le p1'
  have hK' : foldK s'.phi = 0 := by
    have : 3 / 20 ≤ tan s'.phi := by nlinarith
    rw [min_eq_right this] at e'
    rw [e']
    norm_num
  have hK : 0 < foldK s.phi := by
    have h3 : tan s.phi ≤ 1 / 10 := by nlinarith
    rw [min_eq_left (show tan s.phi ≤ 3 / 20 by linarith)] at e
    rw [e]
    exact lt_min (by norm_num) (by linarith)
  rw [hN, hN', hK']
  have : 0 < 80 * π * foldRotor.rho * (6 ^ 2 * (foldK s.phi / (1 + foldK s.phi) ^ 2)) := by positivity
  simpa using this

/-! ## An example -/

theorem someRoot_exact : ExactRoots someRoot := by
  intro f a b p h
  unfold someRoot at h
  split_ifs at h with hex
  simp only [Except.ok.injEq] at h
  rw [← h]
  exact ⟨hex.choose_spec.1, hex.choose_spec.2.1, hex.choose_spec.2.2⟩

/-- Two stations whose lift coefficient is the squared sine of the angle of attack. -/
noncomputable def risingRotor : Rotor ℝ := annulusRotor (fun i => 6 + i) (fun i => 2 * π * (6 + i) / 3) (fun alpha => sin alpha ^ 2) 1 10

private theorem rising_geometry : (0 : ℝ) < 1 ∧ (1 : ℝ) < 6 + ((0 : ℕ) : ℝ) ∧ (6 : ℝ) + ((0 : ℕ) : ℝ) < 6 + ((1 : ℕ) : ℝ) ∧ (6 : ℝ) + ((1 : ℕ) : ℝ) < 10 := by
  norm_num

theorem risingRotor_straight : StraightRotor risingRotor :=
  annulusRotor_straight rising_geometry.1 rising_geometry.2.1 rising_geometry.2.2.1 rising_geometry.2.2.2

theorem risingRotor_residual (U az : ℝ) {i : ℕ} (hi : i < 2) {phi : ℝ} (h0 : 0 < phi) (h1 : phi ≤ π / 2) :
    stationResidual risingRotor U (30 / π) 0 az i phi = sin phi * (1 + cos phi / 4) - U / (6 + i) * cos phi := by
  have key := annulusRotor_residual (r := fun i => 6 + i) (chord := fun i => 2 * π * (6 + i) / 3) (cl := fun alpha => sin alpha ^ 2)
    rising_geometry.1 rising_geometry.2.1 rising_geometry.2.2.1 rising_geometry.2.2.2 U az hi phi
  refine key.trans ?_
  have hs : sin phi ≠ 0 := (sin_pos_of_pos_of_lt_pi h0 (by linarith [pi_pos])).ne'
  have hr : (0 : ℝ) < 6 + i := by positivity
  have hk : 3 * (2 * π * (6 + (i : ℝ)) / 3) / (2 * π * (6 + i)) * (sin phi ^ 2 * cos phi) / (4 * sin phi ^ 2) = cos phi / 4 := by
    have := pi_ne_zero
    field_simp
  rw [hk]
  have hc : 0 ≤ cos phi := cos_nonneg_of_mem_Icc ⟨by linarith [pi_pos], h1⟩
  have hc1 := cos_le_one phi
  rw [axial_momentum h0 (by linarith)]
  simp only [bemResidual, h0, if_true]
  have e : 1 - cos phi / 4 / (1 + cos phi / 4) = 1 / (1 + cos phi / 4) := by field_simp; ring
  rw [e]
  field_simp
  ring

theorem risingRotor_station {U : ℝ} (hU : 1 ≤ U) {az : ℝ} {R' : Rotor ℝ} {L : LoadsOut ℝ}
    (h : distributedAeroLoads someRoot risingRotor U (30 / π) 0 az = (R', .ok L)) {i : ℕ} {s : Station ℝ} (hs : L.stations[i]? = some s) :
    s.warned = false ∧ s.phi ∈ Set.Ioo 0 (π / 2) := by
  have hpi := pi_gt_three
  have hi : i < 2 := (loads_station h hs).1
  have hir : (i : ℝ) ≤ 1 := by exact_mod_cast (by omega : i ≤ 1)
  have hi0 : (0 : ℝ) ≤ i := by positivity
  have hle : (1 / 1000000 : ℝ) ≤ π / 2 := by linarith
  have hx : 1 / 7 ≤ U / (6 + i) := div_le_div₀ (by linarith) hU (by linarith) (by linarith)
  obtain ⟨d, h1, -⟩ := solveStation_real (loads_station h hs).2
  have hf : stationErrf risingRotor (deg2rad 0) (rotorWind risingRotor U (30 / π) (deg2rad az)) i
      = stationResidual risingRotor U (30 / π) 0 az i := rfl
  unfold stationPhi at h1
  rw [if_neg (by simp [num_real]), hf, if_neg (by simp [risingRotor, annulusRotor, demoRotor])] at h1
  have e := fun phi h0 h1 => risingRotor_residual U az hi (phi := phi) h0 h1
  set f := stationResidual risingRotor U (30 / π) 0 az i
  have f2 : f (π / 2) = 1 := by rw [e _ (by linarith) le_rfl, sin_pi_div_two, cos_pi_div_two]; norm_num
  have hsign : f (1 / 1000000) * f (π / 2) ≤ 0 := by
    rw [f2, mul_one, e _ (by norm_num) hle]
    have s1 : sin (1 / 1000000) ≤ 1 / 1000000 := sin_le (by norm_num)
    have s0 : 0 ≤ sin (1 / 1000000) := sin_nonneg_of_nonneg_of_le_pi (by norm_num) (by linarith)
    have c1 : 1 / 2 ≤ cos (1 / 1000000) := by
      have := one_sub_sq_div_two_le_cos (x := 1 / 1000000)
      norm_num at this ⊢
      linarith
    have c2 := cos_le_one (1 / 1000000)
    have h3 : sin (1 / 1000000) * (1 + cos (1 / 1000000) / 4) ≤ 1 / 1000000 * (1 + 1 / 4) :=
      mul_le_mul s1 (by linarith) (by linarith) (by norm_num)
    have h4 : 1 / 7 * (1 / 2) ≤ U / (6 + i) * cos (1 / 1000000) := mul_le_mul hx c1 (by norm_num) (by linarith)
    norm_num at h3 h4 ⊢
    linarith
  have hcont : ContinuousOn f (Set.Icc (1 / 1000000) (π / 2)) := by
    refine ContinuousOn.congr (f := fun phi => sin phi * (1 + cos phi / 4) - U / (6 + i) * cos phi) (by fun_prop) ?_
    intro phi hp
    exact e phi (lt_of_lt_of_le (by norm_num) hp.1) hp.2
  obtain ⟨p, e1, e2, e3⟩ := someRoot_finds f _ _ hle hcont hsign
  unfold solvePhi at h1
  rw [(bracket_choice f).1 hsign] at h1
  simp only [e1, Except.ok.injEq, Prod.mk.injEq] at h1
  rw [← h1.1]
  refine ⟨h1.2.symm, lt_of_lt_of_le (by norm_num) e3.1, lt_of_le_of_ne e3.2 fun h0 => ?_⟩
  rw [h0, f2] at e2
  norm_num at e2

/-- The hypotheses of `evaluate_rises` are met: the call succeeds and thrust, root moment, torque and power rise from 6 to 8 m/s. -/
example : ∃ o x x', (evaluate someRoot risingRotor [⟨6, 30 / π, 0⟩, ⟨8, 30 / π, 0⟩] false).2 = .ok o ∧ o.conds = [x, x'] ∧
    x.acc.T.val < x'.acc.T.val ∧ x.acc.Mb.val < x'.acc.Mb.val ∧ x.acc.Q.val < x'.acc.Q.val ∧ x.P.val < x'.P.val := by
  have hpi := pi_gt_three
  have hO : 30 / π ≠ 0 := by positivity
  obtain ⟨o, ho⟩ := evaluate_conditions_ok someRoot risingRotor [⟨6, 30 / π, 0⟩, ⟨8, 30 / π, 0⟩] false (by simp) fun c hc => by
    have hc' : c.Omega = 30 / π := by simp only [List.mem_cons, List.not_mem_nil, or_false] at hc; rcases hc with rfl | rfl <;> rfl
    obtain ⟨o, x, h, -⟩ := evaluate_total someRoot_onlyValueError risingRotor c false (by simp [risingRotor, annulusRotor, demoRotor]) rfl
      (by rw [hc']; exact hO) (by simp [risingRotor, annulusRotor, demoRotor])
    exact ⟨o, h⟩
  obtain ⟨x, x', hx⟩ := List.length_eq_two.mp (evaluate_length ho)
  have hpol : ∀ i p, pitchedPolar risingRotor 0 i p = (sin p ^ 2, 0) := fun i p => by
    simp [pitchedPolar, risingRotor, annulusRotor]
  have hreg : ∀ i < risingRotor.n, ∀ p, 0 < p → p ≤ π / 2 → RegularPitched risingRotor 0 i p := by
    intro i hi p h0 h1
    have hc : 0 ≤ cos p := cos_nonneg_of_mem_Icc ⟨by linarith, h1⟩
    unfold RegularPitched
    rw [hpol]
    have hF : lossSpec risingRotor.opts risingRotor.B (risingRotor.r i) risingRotor.Rhub risingRotor.Rtip p = 1 := by
      simp [lossSpec, risingRotor, annulusRotor]
    rw [hF]
    refine regularK_lossless (lt_of_lt_of_le (by norm_num) (show 0 ≤ _ from ?_))
    unfold kSpec cnSpec
    rw [hF]
    simp only [risingRotor, annulusRotor, demoRotor, if_true, zero_mul, add_zero]
    positivity
  have hsin : ∀ {p q : ℝ}, 0 < p → p ≤ q → q ≤ π / 2 → sin p ^ 2 ≤ sin q ^ 2 := fun h0 h1 h2 =>
    pow_le_pow_left₀ (sin_nonneg_of_nonneg_of_le_pi h0.le (by linarith)) (sin_le_sin_of_le_of_le_pi_div_two (by linarith) h2 h1) 2
  have hlow : ∀ k < risingRotor.nSector, ∀ L, (distributedAeroLoads someRoot risingRotor 6 (30 / π) 0 (k * (360 / risingRotor.nSector))).2 = .ok L →
      ∀ (i : ℕ) (s : Station ℝ), L.stations[i]? = some s → s.warned = false ∧ s.phi ∈ Set.Ioo 0 (π / 2) ∧ s.loads.cl = sin s.phi ^ 2 ∧
        s.loads.cd = 0 ∧ i < risingRotor.n := by
    intro k _ L hL i s hs
    have e : distributedAeroLoads someRoot risingRotor 6 (30 / π) 0 (k * (360 / risingRotor.nSector)) = (_, .ok L) := Prod.ext rfl hL
    obtain ⟨w, hphi⟩ := risingRotor_station (by norm_num) e hs
    have hi := (loads_station e hs).1
    have hV := risingRotor_straight.wind 6 (30 / π) (k * (360 / risingRotor.nSector) * (π / 180)) hi
    have hc := risingRotor_straight.cos_pos
    have hri : 0 < risingRotor.r i := risingRotor_straight.hub.trans (risingRotor_straight.range hi).1
    obtain ⟨f1, f2, -⟩ := station_facts (R := risingRotor) rfl (.inr fun _ _ _ => rfl) e hO hs hV (by positivity) (by positivity)
    rw [stationPolar_pitched (fun _ _ _ => rfl), hpol] at f1 f2
    exact ⟨w, hphi, f1, f2, hi⟩
  obtain ⟨c1, c2, c3⟩ := evaluate_rises someRoot someRoot_exact risingRotor _ o false ho 0 1 _ _ x x' rfl (by rw [hx]; rfl) rfl (by rw [hx]; rfl)
    risingRotor_straight rfl (fun _ _ _ _ _ => rfl) (by simp [risingRotor, annulusRotor, demoRotor]) (by simp [risingRotor, annulusRotor, demoRotor])
    (by norm_num [risingRotor, annulusRotor, demoRotor]) (fun i _ => by simp only [risingRotor, annulusRotor]; positivity) (by norm_num)
    (by norm_num) (by positivity) rfl rfl
    (fun i hi => attachedFlow_of_constant_drag (by simp [risingRotor, annulusRotor, demoRotor]) risingRotor_straight.hub
      (risingRotor_straight.range hi).1 (risingRotor_straight.range hi).2 (fun h0 h1 h2 => by simp only [hpol]; exact hsin h0 h1 h2)
      fun _ => ⟨0, le_rfl, fun _ _ _ => by simp only [hpol]⟩)
    (fun i hi => ⟨fun _ _ _ => by simp only [hpol]; exact ⟨le_rfl, le_rfl⟩, fun _ _ _ => by simp only [hpol, zero_mul, le_refl]⟩)
    (fun i hi => ⟨hreg i hi _ (by norm_num) (by linarith), hreg i hi _ (by linarith) le_rfl⟩)
    (fun k hk L hL i s hs => by
      obtain ⟨a1, a2, a3, -, a5⟩ := hlow k hk L hL i s hs
      refine ⟨a1, a2, ?_, hreg i a5 _ a2.1 a2.2.le⟩
      rw [a3]
      have : 0 < sin s.phi := sin_pos_of_pos_of_lt_pi a2.1 (by linarith [a2.2])
      positivity)
    (fun k hk L hL i s hs => by
      have e : distributedAeroLoads someRoot risingRotor 8 (30 / π) 0 (k * (360 / risingRotor.nSector)) = (_, .ok L) := Prod.ext rfl hL
      obtain ⟨w, hphi⟩ := risingRotor_station (by norm_num) e hs
      exact ⟨w, hreg i (loads_station e hs).1 _ hphi.1 hphi.2.le⟩)
  obtain ⟨c4, c5⟩ := c3 fun k hk L hL i s hs => by
    obtain ⟨-, a2, a3, a4, a5⟩ := hlow k hk L hL i s hs
    have e : distributedAeroLoads someRoot risingRotor 6 (30 / π) 0 (k * (360 / risingRotor.nSector)) = (_, .ok L) := Prod.ext rfl hL
    obtain ⟨b1, -, b3, -⟩ := distributedAeroLoads_forces _ _ _ _ _ _ _ _ e i s hs
    rw [b3, b1, a3, a4]
    have h1 : 0 < sin s.phi := sin_pos_of_pos_of_lt_pi a2.1 (by linarith [a2.2])
    have h2 : 0 ≤ risingRotor.rho := by norm_num [risingRotor, annulusRotor, demoRotor]
    have h3 : 0 ≤ risingRotor.chord i := by simp only [risingRotor, annulusRotor]; positivity
    simp only [zero_mul, sub_zero]
    positivity
  exact ⟨o, x, x', ho, hx, c1, c2, c4, c5⟩

end Verif
