import Verif.Props.SwirlPitch

/-!
# Widening the blades (C116)
-/

namespace Verif

open Real

/-! ## The section -/

section
variable {o : BemOpts} {B : ℕ} {r chord chord' Rhub Rtip Vx Vy : ℝ} {cl cd : ℝ → ℝ} {p q : ℝ}

/-- More chord at the same inflow angle. -/
theorem sectionSide_chord (hB : 0 < B) (hRhub : 0 < Rhub) (h1 : Rhub < r) (h2 : r < Rtip) (hcc : chord < chord') (hVx : 0 < Vx) (hVy : 0 < Vy)
    (hp : 0 < p) (hp2 : p < π / 2) (hcl : 0 < cl p) (hcd : 0 ≤ usedDrag o cd p)
    (hct : o.wakeRot = true → 0 ≤ cl p * sin p - usedDrag o cd p * cos p) :
    sectionSide o B r chord Rhub Rtip Vx Vy cl cd p < sectionSide o B r chord' Rhub Rtip Vx Vy cl cd p := by
  have hpi := pi_pos
  have hr : 0 < r := hRhub.trans h1
  have hB' : (0 : ℝ) < B := by exact_mod_cast hB
  have hF := (lossSpec_range o B hB r Rhub Rtip p hRhub h1 h2 hp (by linarith)).1
  have hs : 0 < sin p := sin_pos_of_pos_of_lt_pi hp (by linarith)
  have hcos : 0 < cos p := cos_pos_of_mem_Ioo ⟨by linarith, hp2⟩
  have ht : 0 < tan p := tan_pos_of_pos_of_lt_pi_div_two hp hp2
  have hn : 0 < cl p + usedDrag o cd p * tan p := by positivity
  unfold sectionSide
  refine add_lt_add_of_lt_of_le ?_ (mul_le_mul_of_nonneg_left ?_ (by positivity))
  · unfold sectionWake
    refine mul_lt_mul_of_pos_left (wakeOf_strict hF ?_) ht
    unfold forceK
    gcongr
  · unfold sectionSwirl
    simp only
    split_ifs with hw
    · refine mul_le_mul_of_nonneg_right (by gcongr) ?_
      have e : cl p / (lossSpec o B r Rhub Rtip p * cos p) - usedDrag o cd p / (lossSpec o B r Rhub Rtip p * sin p)
          = (cl p * sin p - usedDrag o cd p * cos p) / (lossSpec o B r Rhub Rtip p * (sin p * cos p)) := by
        field_simp
      rw [e]
      exact div_nonneg (hct hw) (by positivity)
    · exact le_rfl

/-- **C116** Section level: at the solution for the wider section the inflow angle is smaller. With wake rotation the narrower section
must not brake the rotor. -/
theorem chord_angles (hB : 0 < B) (hRhub : 0 < Rhub) (h1 : Rhub < r) (h2 : r < Rtip) (hc : 0 < chord) (hcc : chord < chord') (hVx : 0 < Vx) (hVy : 0 < Vy)
    (hatt : AttachedFlow o B r Rhub Rtip cl cd) (hp : p ∈ Set.Ioo 0 (π / 2))
    (hroot : (inductionFactors r chord Rhub Rtip p (cl p) (cd p) B Vx Vy o).fzero = 0)
    (hreg : RegularK (lossSpec o B r Rhub Rtip p) (kSpec o B r chord Rhub Rtip p (cl p) (cd p))) (hcl : 0 < cl p)
    (hct : o.wakeRot = true → 0 ≤ cl p * sin p - usedDrag o cd p * cos p) (hq : q ∈ Set.Ioo 0 (π / 2))
    (hroot' : (inductionFactors r chord' Rhub Rtip q (cl q) (cd q) B Vx Vy o).fzero = 0)
    (hreg' : RegularK (lossSpec o B r Rhub Rtip q) (kSpec o B r chord' Rhub Rtip q (cl q) (cd q))) : q < p := by
  by_contra h
  push Not at h
  have hd : 0 ≤ usedDrag o cd p := by
    unfold usedDrag
    split_ifs with hu
    · exact (hatt.drag hu hp.1 le_rfl hp.2.le).1
    · exact le_rfl
  have e := sectionSide_root (cl := cl) (cd := cd) hB hRhub h1 h2 hVy hp.1 hp.2 hreg hroot
  have e' := sectionSide_root (cl := cl) (cd := cd) hB hRhub h1 h2 hVy hq.1 hq.2 hreg' hroot'
  have l := sectionSide_chord (chord := chord) (chord' := chord') (cl := cl) (cd := cd) hB hRhub h1 h2 hcc hVx hVy hp.1 hp.2 hcl hd hct
  rcases lt_or_eq_of_le h with h | h
  · have m := sectionSide_lt (cl := cl) (cd := cd) hB hRhub h1 h2 (hc.trans hcc) hVx hVy hatt hp.1 h hq.2 (hcl.le.trans (hatt.lift hp.1 h.le hq.2.le))
    linarith
  · rw [← h] at e'
    linarith

end

/-! ## C116 -/

section
variable {R : Rotor ℝ} {Uinf Omega pitch az : ℝ} {i : ℕ}

/-- **C116** A station in attached flow, whose airfoil ignores the Reynolds number, on two rotors that differ in the chord only: on the
wider blade the inflow angle and the angle of attack are smaller. If the residual uses drag, the normal force is larger nevertheless. -/
theorem station_wider (bq : RootFinder ℝ) (hbq : ExactRoots bq) (hinv : R.inv = none) (hre : (R.af i).ReIndependent) (hO : Omega ≠ 0)
    (hrho : 0 < R.rho) (hatt : AttachedStation R Uinf Omega pitch az i) (chord' : ℕ → ℝ) (hwide : R.chord i < chord' i) (R1 R2 : Rotor ℝ)
    (L L' : LoadsOut ℝ) (h : distributedAeroLoads bq R Uinf Omega pitch az = (R1, .ok L))
    (h' : distributedAeroLoads bq { R with chord := chord' } Uinf Omega pitch az = (R2, .ok L'))
    (s s' : Station ℝ) (hs : L.stations[i]? = some s) (hs' : L'.stations[i]? = some s') (hw : s.warned = false) (hw' : s'.warned = false)
    (hphi : s.phi ∈ Set.Ioo 0 (π / 2)) (hphi' : s'.phi ∈ Set.Ioo 0 (π / 2)) (hcl : 0 < s.loads.cl)
    (hct : R.opts.wakeRot = true → R.opts.useCd = true → 0 ≤ s.loads.Tp) (hreg : RegularPitched R pitch i s.phi)
    (hreg' : RegularPitched { R with chord := chord' } pitch i s'.phi) :
    s'.phi < s.phi ∧ s'.loads.alpha < s.loads.alpha ∧ (R.opts.useCd = true → s.loads.Np < s'.loads.Np) := by
  have hpi := pi_gt_three
  obtain ⟨Vx, Vy, hV⟩ : ∃ Vx Vy, rotorWind R Uinf Omega (az * (π / 180)) i = (Vx, Vy) := ⟨_, _, rfl⟩
  have hV' : rotorWind { R with chord := chord' } Uinf Omega (az * (π / 180)) i = (Vx, Vy) := hV
  obtain ⟨hB, hRhub, h1, h2, hc, hVx, hVy, hflow⟩ := hatt
  rw [hV] at hVx hVy
  simp only at hVx hVy
  have hri : 0 < R.r i := hRhub.trans h1
  have hBr : (0 : ℝ) < R.B := by exact_mod_cast hB
  obtain ⟨f1, f2, f3, f4⟩ := station_facts hinv (.inr hre) h hO hs hV hVx.ne' hVy.ne'
  obtain ⟨g1, g2, g3, g4⟩ := station_facts (R := { R with chord := chord' }) hinv (.inr hre) h' hO hs' hV' hVx.ne' hVy.ne'
  have e := stationResidual_const (Uinf := Uinf) (Omega := Omega) (pitch := pitch) (az := az) hinv (.inr hre)
  have e' := stationResidual_const (R := { R with chord := chord' }) (Uinf := Uinf) (Omega := Omega) (pitch := pitch) (az := az) hinv (.inr hre)
  have hpol : pitchedPolar { R with chord := chord' } pitch i = pitchedPolar R pitch i := rfl
  rw [stationPolar_pitched hre, hV] at e
  rw [stationPolar_pitched (R := { R with chord := chord' }) hre, hV', hpol] at e'
  rw [stationPolar_pitched hre] at f1 f2 f3 hflow
  rw [stationPolar_pitched (R := { R with chord := chord' }) hre, hpol] at g1 g2 g3
  unfold RegularPitched at hreg hreg'
  rw [hpol] at hreg'
  obtain ⟨z, -, -⟩ := exact_interval hbq h hO hs hw
  obtain ⟨z', -, -⟩ := exact_interval (R := { R with chord := chord' }) hbq h' hO hs' hw'
  rw [e] at z
  rw [e'] at z'
  have hc' : 0 < chord' i := hc.trans hwide
  obtain ⟨a1, a2, a3, -⟩ := distributedAeroLoads_forces bq R R1 _ _ _ _ L h i s hs
  obtain ⟨b1, b2, -⟩ := distributedAeroLoads_forces bq _ R2 _ _ _ _ L' h' i s' hs'
  have hcl' := hcl
  rw [f1] at hcl'
  have hsin : 0 < sin s.phi := sin_pos_of_pos_of_lt_pi hphi.1 (by linarith [hphi.2])
  have hd : 0 ≤ usedDrag R.opts (fun p => (pitchedPolar R pitch i p).2) s.phi := by
    unfold usedDrag
    split_ifs with hu
    · exact (hflow.drag hu hphi.1 le_rfl hphi.2.le).1
    · exact le_rfl
  have hct' : R.opts.wakeRot = true → R.opts.useCd = true → 0 ≤ (pitchedPolar R pitch i s.phi).1 * sin s.phi - (pitchedPolar R pitch i s.phi).2 * cos s.phi := by
    intro hwr hu
    have ht := hct hwr hu
    rw [a3, a1, f1, f2] at ht
    have hC : 0 < s.loads.W ^ 2 := by
      have hsp := (section_speed hB hRhub h1 h2 hc hVx hVy hflow hphi z hreg hcl'.le)
      simp only at hsp
      rw [← f3] at hsp
      have : 0 < (Vy / (1 - sectionSwirl R.opts R.B (R.r i) (R.chord i) R.Rhub R.Rtip (fun p => (pitchedPolar R pitch i p).1)
          (fun p => (pitchedPolar R pitch i p).2) s.phi)) ^ 2 := pow_pos (div_pos hVy hsp.1) 2
      rw [← hsp.2] at this
      exact pos_of_mul_pos_left this (sq_nonneg _)
    exact nonneg_of_mul_nonneg_right ht (by positivity)
  have hlt : s'.phi < s.phi := by
    refine chord_angles hB hRhub h1 h2 hc hwide hVx hVy hflow hphi z hreg hcl' (fun hwr => ?_) hphi' z' hreg'
    unfold usedDrag
    split_ifs with hu
    · exact hct' hwr hu
    · have := mul_pos hcl' hsin
      linarith
  refine ⟨hlt, ?_, fun hu => ?_⟩
  · have : s'.loads.alpha * (π / 180) < s.loads.alpha * (π / 180) := by
      rw [f4, g4]
      simp only
      linarith
    exact lt_of_mul_lt_mul_right this (by positivity)
  · have hcmp := thrust_wider (cl := fun f => (pitchedPolar R pitch i f).1) (cd := fun f => (pitchedPolar R pitch i f).2) hB hRhub h1 h2 hc hwide.le hVx hVy hu
      hflow hphi z hreg hcl'.le (fun hwr => hct' hwr hu) hphi' z' hreg' hlt
    simp only at hcmp
    rw [← f3, ← g3] at hcmp
    rw [a2, b2, a1, b1, f1, f2, g1, g2]
    simp only at hcmp ⊢
    have h4 := mul_lt_mul_of_pos_left hcmp (show 0 < R.rho / 2 by positivity)
    refine lt_of_eq_of_lt ?_ (lt_of_lt_of_eq h4 ?_) <;> ring

end

/-! ## The rotor -/

/-- **C116** Two straight rotors in axial wind that differ in the chord only, whose residual uses drag, attached flow at every
station of the narrower one, all stations solved below 90°. With wake rotation no station of the narrower one may brake it. The rotor with the wider blades has the larger thrust and blade
root moment. -/
theorem evaluate_wider (bq : RootFinder ℝ) (hbq : ExactRoots bq) (R : Rotor ℝ) (chord' : ℕ → ℝ) (cs : List (Cond ℝ)) (o o' : EvalOut ℝ) (co : Bool)
    (h : (evaluate bq R cs co).2 = .ok o) (h' : (evaluate bq { R with chord := chord' } cs co).2 = .ok o') (m : ℕ) (c : Cond ℝ) (x x' : CondOut ℝ)
    (hc : cs[m]? = some c) (hx : o.conds[m]? = some x) (hx' : o'.conds[m]? = some x') (G : StraightRotor R) (hinv : R.inv = none)
    (hre : ∀ i < R.n, (R.af i).ReIndependent) (hB : 0 < R.B) (hns : 0 < R.nSector) (hrho : 0 < R.rho) (hchord : ∀ i < R.n, 0 < R.chord i)
    (hwide : ∀ i < R.n, R.chord i < chord' i) (hcd : R.opts.useCd = true)
    (hU : 0 < c.Uinf) (hO : 0 < c.Omega)
    (hflow : ∀ i < R.n, AttachedFlow R.opts R.B (R.r i) R.Rhub R.Rtip (fun p => (pitchedPolar R c.pitch i p).1) (fun p => (pitchedPolar R c.pitch i p).2))
    (hnarrow : ∀ k < R.nSector, ∀ L, (distributedAeroLoads bq R c.Uinf c.Omega c.pitch (k * (360 / R.nSector))).2 = .ok L →
      ∀ (i : ℕ) (s : Station ℝ), L.stations[i]? = some s →
        s.warned = false ∧ s.phi ∈ Set.Ioo 0 (π / 2) ∧ 0 < s.loads.cl ∧ (R.opts.wakeRot = true → 0 ≤ s.loads.Tp) ∧
          RegularPitched R c.pitch i s.phi)
    (hwider : ∀ k < R.nSector, ∀ L, (distributedAeroLoads bq { R with chord := chord' } c.Uinf c.Omega c.pitch (k * (360 / R.nSector))).2 = .ok L →
      ∀ (i : ℕ) (s : Station ℝ), L.stations[i]? = some s →
        s.warned = false ∧ s.phi ∈ Set.Ioo 0 (π / 2) ∧ RegularPitched { R with chord := chord' } c.pitch i s.phi) :
    x.acc.T.val < x'.acc.T.val ∧ x.acc.Mb.val < x'.acc.Mb.val := by
  obtain ⟨L, hL, hT, -, hM, -⟩ := sector_averages h hc hx
  obtain ⟨L', hL', hT', -, hM', -⟩ := sector_averages h' hc hx'
  have hcos := G.cos_pos
  have hpi := pi_pos
  have hBr : (0 : ℝ) < R.B := by exact_mod_cast hB
  have G' : StraightRotor { R with chord := chord' } :=
    ⟨G.n, G.hub, G.first, G.inc, G.last, G.curve, G.curveTip, G.sweep, G.sweepTip, G.cone, G.radius, ⟨G.axial.1, G.axial.2, G.axial.3⟩⟩
  have key : ∀ k < R.nSector, ∀ i < R.n, stationArr (L k).stations SecLoads.Np i < stationArr (L' k).stations SecLoads.Np i := by
    intro k hk i hi
    obtain ⟨R1, e1⟩ : ∃ R', distributedAeroLoads bq R c.Uinf c.Omega c.pitch (k * (360 / R.nSector)) = (R', .ok (L k)) :=
      ⟨_, Prod.ext rfl (hL k hk)⟩
    obtain ⟨R2, e2⟩ : ∃ R', distributedAeroLoads bq { R with chord := chord' } c.Uinf c.Omega c.pitch (k * (360 / R.nSector)) = (R', .ok (L' k)) :=
      ⟨_, Prod.ext rfl (hL' k hk)⟩
    obtain ⟨s, hs⟩ : ∃ s, (L k).stations[i]? = some s :=
      ⟨_, List.getElem?_eq_getElem (by rw [(solveStations_ok (distributedAeroLoads_stations e1)).1]; exact hi)⟩
    obtain ⟨s', hs'⟩ : ∃ s, (L' k).stations[i]? = some s :=
      ⟨_, List.getElem?_eq_getElem (by rw [(solveStations_ok (distributedAeroLoads_stations e2)).1]; exact hi)⟩
    obtain ⟨w, hphi, hcl, hb, r2⟩ := hnarrow k hk _ (hL k hk) i s hs
    obtain ⟨w', hphi', r3⟩ := hwider k hk _ (hL' k hk) i s' hs'
    have hV := G.wind c.Uinf c.Omega (k * (360 / R.nSector) * (π / 180)) hi
    have hr := G.range hi
    have hri : 0 < R.r i := G.hub.trans hr.1
    have hatt : AttachedStation R c.Uinf c.Omega c.pitch (k * (360 / R.nSector)) i :=
      ⟨hB, G.hub, hr.1, hr.2, hchord i hi, by rw [hV]; positivity, by rw [hV]; positivity, by rw [stationPolar_pitched (hre i hi)]; exact hflow i hi⟩
    obtain ⟨-, -, n⟩ := station_wider bq hbq hinv (hre i hi) hO.ne' hrho hatt chord' (hwide i hi) R1 R2 _ _ e1 e2 s s' hs hs' w w' hphi hphi' hcl
      (fun hw _ => hb hw) r2 r3
    have n' := n hcd
    simpa [stationArr, hs, hs'] using n'
  constructor
  · rw [hT, hT']
    refine mul_lt_mul_of_pos_left (mean_lt hns fun k hk => ?_) hBr
    simp only
    rw [(G.blade_integrals (L k)).1, (G'.blade_integrals (L' k)).1]
    exact G.integral_lt fun i hi => mul_lt_mul_of_pos_right (key k hk i hi) hcos
  · rw [hM, hM']
    refine mean_lt hns fun k hk => ?_
    simp only
    rw [(G.blade_integrals (L k)).2.2, (G'.blade_integrals (L' k)).2.2]
    exact G.integral_lt fun i hi => mul_lt_mul_of_pos_right (key k hk i hi) (mul_pos (G.hub.trans (G.range hi).1) hcos)

/-! ## An example -/

/-- The rotor of `risingRotor` with the chord multiplied by `w`. -/
noncomputable def chordRotor (w : ℝ) : Rotor ℝ := annulusRotor (fun i => 6 + i) (fun i => w * (2 * π * (6 + i) / 3)) (fun alpha => sin alpha ^ 2) 1 10

theorem chordRotor_straight (w : ℝ) : StraightRotor (chordRotor w) :=
  annulusRotor_straight (by norm_num) (by norm_num) (by norm_num) (by norm_num)

theorem chordRotor_polar (w : ℝ) (i : ℕ) (p : ℝ) : pitchedPolar (chordRotor w) 0 i p = (sin p ^ 2, 0) := by
  simp [pitchedPolar, chordRotor, annulusRotor]

theorem chordRotor_regular {w : ℝ} (hw : 0 ≤ w) (i : ℕ) {p : ℝ} (h0 : 0 < p) (h1 : p ≤ π / 2) : RegularPitched (chordRotor w) 0 i p := by
  have hpi := pi_pos
  have hc : 0 ≤ cos p := cos_nonneg_of_mem_Icc ⟨by linarith, h1⟩
  unfold RegularPitched
  rw [chordRotor_polar]
  have hF : lossSpec (chordRotor w).opts (chordRotor w).B ((chordRotor w).r i) (chordRotor w).Rhub (chordRotor w).Rtip p = 1 := by
    simp [lossSpec, chordRotor, annulusRotor]
  rw [hF]
  refine regularK_lossless (lt_of_lt_of_le (by norm_num) (show 0 ≤ _ from ?_))
  unfold kSpec cnSpec
  rw [hF]
  simp only [chordRotor, annulusRotor, demoRotor, if_true, zero_mul, add_zero]
  positivity

theorem chordRotor_residual {w : ℝ} (hw : 0 ≤ w) (hw2 : w ≤ 2) (U az : ℝ) {i : ℕ} (hi : i < 2) {phi : ℝ} (h0 : 0 < phi) (h1 : phi ≤ π / 2) :
    stationResidual (chordRotor w) U (30 / π) 0 az i phi = sin phi * (1 + w * cos phi / 4) - U / (6 + i) * cos phi := by
  have key := annulusRotor_residual (r := fun i => 6 + i) (chord := fun i => w * (2 * π * (6 + i) / 3)) (cl := fun alpha => sin alpha ^ 2)
    (Rhub := 1) (Rtip := 10) (by norm_num) (by norm_num) (by norm_num) (by norm_num) U az hi phi
  refine key.trans ?_
  have hs : sin phi ≠ 0 := (sin_pos_of_pos_of_lt_pi h0 (by linarith [pi_pos])).ne'
  have hr : (0 : ℝ) < 6 + i := by positivity
  have hk : 3 * (w * (2 * π * (6 + (i : ℝ)) / 3)) / (2 * π * (6 + i)) * (sin phi ^ 2 * cos phi) / (4 * sin phi ^ 2) = w * cos phi / 4 := by
    have := pi_ne_zero
    field_simp
  rw [hk]
  have hc : 0 ≤ cos phi := cos_nonneg_of_mem_Icc ⟨by linarith [pi_pos], h1⟩
  have hc1 := cos_le_one phi
  have hwc : w * cos phi ≤ 2 := by nlinarith
  have hwc0 : 0 ≤ w * cos phi := by positivity
  rw [axial_momentum h0 (by linarith)]
  simp only [bemResidual, h0, if_true]
  generalize w * cos phi = v at *
  have e : 1 - v / 4 / (1 + v / 4) = 1 / (1 + v / 4) := by field_simp; ring
  rw [e]
  field_simp
  ring

theorem chordRotor_station {w : ℝ} (hw : 0 ≤ w) (hw2 : w ≤ 2) {U : ℝ} (hU : 1 ≤ U) {az : ℝ} {R' : Rotor ℝ} {L : LoadsOut ℝ}
    (h : distributedAeroLoads someRoot (chordRotor w) U (30 / π) 0 az = (R', .ok L)) {i : ℕ} {s : Station ℝ} (hs : L.stations[i]? = some s) :
    s.warned = false ∧ s.phi ∈ Set.Ioo 0 (π / 2) := by
  have hpi := pi_gt_three
  have hi : i < 2 := (loads_station h hs).1
  have hir : (i : ℝ) ≤ 1 := by exact_mod_cast (by omega : i ≤ 1)
  have hi0 : (0 : ℝ) ≤ i := by positivity
  have hle : (1 / 1000000 : ℝ) ≤ π / 2 := by linarith
  have hx : 1 / 7 ≤ U / (6 + i) := div_le_div₀ (by linarith) hU (by linarith) (by linarith)
  obtain ⟨d, h1, -⟩ := solveStation_real (loads_station h hs).2
  have hf : stationErrf (chordRotor w) (deg2rad 0) (rotorWind (chordRotor w) U (30 / π) (deg2rad az)) i
      = stationResidual (chordRotor w) U (30 / π) 0 az i := rfl
  unfold stationPhi at h1
  rw [if_neg (by simp [num_real]), hf, if_neg (by simp [chordRotor, annulusRotor, demoRotor])] at h1
  have e := fun phi h0 h1 => chordRotor_residual hw hw2 U az hi (phi := phi) h0 h1
  set f := stationResidual (chordRotor w) U (30 / π) 0 az i
  have f2 : f (π / 2) = 1 := by rw [e _ (by linarith) le_rfl, sin_pi_div_two, cos_pi_div_two]; norm_num
  have hsign : f (1 / 1000000) * f (π / 2) ≤ 0 := by
    rw [f2, mul_one, e _ (by norm_num) hle]
    have s1 : sin (1 / 1000000) ≤ 1 / 1000000 := sin_le (by norm_num)
    have s0 : 0 ≤ sin (1 / 1000000) := sin_nonneg_of_nonneg_of_le_pi (by norm_num) (by linarith)
    have c1 : 1 / 2 ≤ cos (1 / 1000000) := by
      have := one_sub_sq_div_two_le_cos (x := 1 / 1000000)
      norm_num at this ⊢
      linarith
    have c2 := cos_le_one (1 / 1000000)
    have c3 : w * cos (1 / 1000000) ≤ 2 := by nlinarith
    have c4 : 0 ≤ w * cos (1 / 1000000) := mul_nonneg hw (by linarith)
    have h3 : sin (1 / 1000000) * (1 + w * cos (1 / 1000000) / 4) ≤ 1 / 1000000 * (1 + 2 / 4) :=
      mul_le_mul s1 (by linarith) (by linarith) (by norm_num)
    have h4 : 1 / 7 * (1 / 2) ≤ U / (6 + i) * cos (1 / 1000000) := mul_le_mul hx c1 (by norm_num) (by linarith)
    linarith
  have hcont : ContinuousOn f (Set.Icc (1 / 1000000) (π / 2)) := by
    refine ContinuousOn.congr (f := fun phi => sin phi * (1 + w * cos phi / 4) - U / (6 + i) * cos phi) (by fun_prop) ?_
    intro phi hp
    exact e phi (lt_of_lt_of_le (by norm_num) hp.1) hp.2
  obtain ⟨p, e1, e2, e3⟩ := someRoot_finds f _ _ hle hcont hsign
  unfold solvePhi at h1
  rw [(bracket_choice f).1 hsign] at h1
  simp only [e1, Except.ok.injEq, Prod.mk.injEq] at h1
  rw [← h1.1]
  refine ⟨h1.2.symm, lt_of_lt_of_le (by norm_num) e3.1, lt_of_le_of_ne e3.2 fun h0 => ?_⟩
  rw [h0, f2] at e2
  norm_num at e2

/-- The hypotheses of `evaluate_wider` are met: both calls succeed, and doubling the chord raises thrust and root moment. -/
example : ∃ o o' x x', (evaluate someRoot (chordRotor 1) [⟨6, 30 / π, 0⟩] false).2 = .ok o ∧
    (evaluate someRoot (chordRotor 2) [⟨6, 30 / π, 0⟩] false).2 = .ok o' ∧ o.conds = [x] ∧ o'.conds = [x'] ∧
    x.acc.T.val < x'.acc.T.val ∧ x.acc.Mb.val < x'.acc.Mb.val := by
  have hpi := pi_gt_three
  have hO : 30 / π ≠ 0 := by positivity
  have total : ∀ w, ∃ o x, (evaluate someRoot (chordRotor w) [⟨6, 30 / π, 0⟩] false).2 = .ok o ∧ o.conds = [x] := by
    intro w
    obtain ⟨o, x, h, -⟩ := evaluate_total someRoot_onlyValueError (chordRotor w) ⟨6, 30 / π, 0⟩ false (by simp [chordRotor, annulusRotor, demoRotor]) rfl
      hO (by simp [chordRotor, annulusRotor, demoRotor])
    obtain ⟨x, hx⟩ := List.length_eq_one_iff.mp (evaluate_length h)
    exact ⟨o, x, h, hx⟩
  obtain ⟨o, x, ho, hx⟩ := total 1
  obtain ⟨o', x', ho', hx'⟩ := total 2
  have hsame : chordRotor 2 = { chordRotor 1 with chord := fun i => 2 * (2 * π * (6 + i) / 3) } := rfl
  obtain ⟨c1, c2⟩ := evaluate_wider someRoot someRoot_exact (chordRotor 1) (fun i => 2 * (2 * π * (6 + i) / 3)) _ o o' false ho ho' 0 _ x x' rfl
    (by rw [hx]; rfl) (by rw [hx']; rfl) (chordRotor_straight 1) rfl (fun _ _ _ _ _ => rfl) (by simp [chordRotor, annulusRotor, demoRotor])
    (by simp [chordRotor, annulusRotor, demoRotor]) (by norm_num [chordRotor, annulusRotor, demoRotor])
    (fun i _ => by simp only [chordRotor, annulusRotor]; positivity)
    (fun i _ => by
      simp only [chordRotor, annulusRotor]
      have : 0 < 2 * π * (6 + (i : ℝ)) / 3 := by positivity
      linarith) rfl (by norm_num) (by positivity)
    (fun i hi => attachedFlow_of_constant_drag (by simp [chordRotor, annulusRotor, demoRotor]) (chordRotor_straight 1).hub
      ((chordRotor_straight 1).range hi).1 ((chordRotor_straight 1).range hi).2
      (fun h0 h1 h2 => by
        simp only [chordRotor_polar]
        exact pow_le_pow_left₀ (sin_nonneg_of_nonneg_of_le_pi h0.le (by linarith)) (sin_le_sin_of_le_of_le_pi_div_two (by linarith) h2 h1) 2)
      fun _ => ⟨0, le_rfl, fun _ _ _ => by simp only [chordRotor_polar]⟩)
    (fun k hk L hL i s hs => by
      have e : distributedAeroLoads someRoot (chordRotor 1) 6 (30 / π) 0 (k * (360 / (chordRotor 1).nSector)) = (_, .ok L) := Prod.ext rfl hL
      obtain ⟨w, hphi⟩ := chordRotor_station (by norm_num) (by norm_num) (by norm_num) e hs
      have hi := (loads_station e hs).1
      have hV := (chordRotor_straight 1).wind 6 (30 / π) (k * (360 / (chordRotor 1).nSector) * (π / 180)) hi
      have hc := (chordRotor_straight 1).cos_pos
      have hri : 0 < (chordRotor 1).r i := (chordRotor_straight 1).hub.trans ((chordRotor_straight 1).range hi).1
      obtain ⟨f1, -⟩ := station_facts (R := chordRotor 1) rfl (.inr fun _ _ _ => rfl) e hO hs hV (by positivity) (by positivity)
      rw [stationPolar_pitched (fun _ _ _ => rfl), chordRotor_polar] at f1
      refine ⟨w, hphi, ?_, fun hw => absurd hw (by simp [chordRotor, annulusRotor]), chordRotor_regular (by norm_num) i hphi.1 hphi.2.le⟩
      rw [f1]
      have : 0 < sin s.phi := sin_pos_of_pos_of_lt_pi hphi.1 (by linarith [hphi.2])
      positivity)
    (fun k hk L hL i s hs => by
      rw [← hsame] at hL ⊢
      have e : distributedAeroLoads someRoot (chordRotor 2) 6 (30 / π) 0 (k * (360 / (chordRotor 1).nSector)) = (_, .ok L) := Prod.ext rfl hL
      obtain ⟨w, hphi⟩ := chordRotor_station (by norm_num) (by norm_num) (by norm_num) e hs
      exact ⟨w, hphi, chordRotor_regular (by norm_num) i hphi.1 hphi.2.le⟩)
  exact ⟨o, o', x, x', ho, ho', hx, hx', c1, c2⟩

/-- The hypotheses of `evaluate_wider` are met with wake rotation on as well. -/
example : ∃ o o' x x', (evaluate someRoot (swirlRotor 1) [⟨6, 30 / π, 0⟩] false).2 = .ok o ∧
    (evaluate someRoot (swirlRotor 2) [⟨6, 30 / π, 0⟩] false).2 = .ok o' ∧ o.conds = [x] ∧ o'.conds = [x'] ∧ (swirlRotor 1).opts.wakeRot = true ∧
    x.acc.T.val < x'.acc.T.val ∧ x.acc.Mb.val < x'.acc.Mb.val := by
  have hpi := pi_gt_three
  have hO : 30 / π ≠ 0 := by positivity
  have total : ∀ w, ∃ o x, (evaluate someRoot (swirlRotor w) [⟨6, 30 / π, 0⟩] false).2 = .ok o ∧ o.conds = [x] := by
    intro w
    obtain ⟨o, x, h, h2, -⟩ := evaluate_total someRoot_onlyValueError (swirlRotor w) ⟨6, 30 / π, 0⟩ false
      (by simp [swirlRotor, featherRotor, annulusRotor, demoRotor]) rfl hO (by simp [swirlRotor, featherRotor, annulusRotor, demoRotor])
    exact ⟨o, x, h, h2⟩
  obtain ⟨o, x, ho, hx⟩ := total 1
  obtain ⟨o', x', ho', hx'⟩ := total 2
  have hsame : swirlRotor 2 = { swirlRotor 1 with chord := fun i => 2 * (π * (6 + i) / 12) } := rfl
  have hz : (0 : ℝ) ∈ Set.Icc (0 : ℝ) 10 := ⟨le_rfl, by norm_num⟩
  have reg : ∀ (w : ℝ) (i : ℕ) (p az : ℝ), RegularAngle (swirlRotor w) 6 (30 / π) 0 az i p → RegularPitched (swirlRotor w) 0 i p := fun w i p az h => h
  obtain ⟨c1, c2⟩ := evaluate_wider someRoot someRoot_exact (swirlRotor 1) (fun i => 2 * (π * (6 + i) / 12)) _ o o' false ho ho' 0 _ x x' rfl
    (by rw [hx]; rfl) (by rw [hx']; rfl) (swirlRotor_straight 1) rfl (fun _ _ _ _ _ => rfl) (by simp [swirlRotor, featherRotor, annulusRotor, demoRotor])
    (by simp [swirlRotor, featherRotor, annulusRotor, demoRotor]) (by norm_num [swirlRotor, featherRotor, annulusRotor, demoRotor])
    (fun i _ => by simp only [swirlRotor]; positivity)
    (fun i _ => by
      simp only [swirlRotor]
      have : 0 < π * (6 + (i : ℝ)) / 12 := by positivity
      linarith) rfl (by norm_num) (by positivity)
    (fun i hi => (swirlRotor_solvable one_pos (by norm_num) hz hi).flow.flow)
    (fun k hk L hL i s hs => by
      obtain ⟨S, t, l⟩ := swirlRotor_drives one_pos (by norm_num) hz _ (Prod.ext rfl hL) hs
      refine ⟨S.solved, S.angle, ?_, fun _ => t, reg _ _ _ _ S.regular⟩
      rw [l, zero_mul, sub_zero]
      have : 0 < sin s.phi := sin_pos_of_pos_of_lt_pi S.angle.1 (by linarith [S.angle.2])
      linarith)
    (fun k hk L hL i s hs => by
      rw [← hsame] at hL ⊢
      obtain ⟨S, -, -⟩ := swirlRotor_drives (w := 2) (by norm_num) le_rfl hz _ (Prod.ext rfl hL) hs
      exact ⟨S.solved, S.angle, reg _ _ _ _ S.regular⟩)
  exact ⟨o, o', x, x', ho, ho', hx, hx', rfl, c1, c2⟩

end Verif
