import Verif.Props.Chord
import Verif.Props.Drag

/-! # C118: tip and hub losses take load off the blade -/

open Real

namespace Verif

/-! ## Specification -/

/-- The options `o'` are `o` with some of the losses switched off. -/
structure FewerLosses (o o' : BemOpts) : Prop where
  drag : o'.useCd = o.useCd
  wake : o'.wakeRot = o.wakeRot
  tip : o'.tipLoss = true → o.tipLoss = true
  hub : o'.hubLoss = true → o.hubLoss = true

/-- The rotor with other options. -/
def Rotor.withOpts {α : Type} (R : Rotor α) (o' : BemOpts) : Rotor α := { R with opts := o' }

/-! ## The section -/

section
variable {o o' : BemOpts} {B : ℕ} {r chord Rhub Rtip Vx Vy : ℝ} {cl cd : ℝ → ℝ} {p q : ℝ}

theorem lossSpec_fewer (ho : FewerLosses o o') (hB : 0 < B) (hRhub : 0 < Rhub) (h1 : Rhub < r) (h2 : r < Rtip) (hp : 0 < p) (hp2 : p < π / 2) :
    lossSpec o B r Rhub Rtip p ≤ lossSpec o' B r Rhub Rtip p := by
  have hpi := pi_pos
  have t := lossSpec_range ⟨false, false, true, false⟩ B hB r Rhub Rtip p hRhub h1 h2 hp (by linarith)
  have u := lossSpec_range ⟨false, true, false, false⟩ B hB r Rhub Rtip p hRhub h1 h2 hp (by linarith)
  simp only [lossSpec, if_true, Bool.false_eq_true, if_false, mul_one, one_mul] at t u
  obtain ⟨-, -, ht, hh⟩ := ho
  unfold lossSpec
  refine mul_le_mul ?_ ?_ ?_ ?_
  · split_ifs with a b b
    · exact le_rfl
    · exact t.2
    · exact absurd (ht b) a
    · exact le_rfl
  · split_ifs with a b b
    · exact le_rfl
    · exact u.2
    · exact absurd (hh b) a
    · exact le_rfl
  · split_ifs
    · exact u.1.le
    · exact zero_le_one
  · split_ifs
    · exact t.1.le
    · exact zero_le_one

theorem usedDrag_fewer (ho : FewerLosses o o') : usedDrag o' cd p = usedDrag o cd p := by
  unfold usedDrag
  rw [ho.drag]

/-- Losses raise the left side of the inflow equation. -/
theorem sectionSide_losses (ho : FewerLosses o o') (hB : 0 < B) (hRhub : 0 < Rhub) (h1 : Rhub < r) (h2 : r < Rtip) (hc : 0 < chord) (hVx : 0 < Vx)
    (hVy : 0 < Vy) (hp : 0 < p) (hp2 : p < π / 2) (hcl : 0 ≤ cl p) (hcd : 0 ≤ usedDrag o cd p)
    (hct : o.wakeRot = true → 0 ≤ cl p * sin p - usedDrag o cd p * cos p) :
    sectionSide o' B r chord Rhub Rtip Vx Vy cl cd p ≤ sectionSide o B r chord Rhub Rtip Vx Vy cl cd p := by
  have hpi := pi_pos
  have hr : 0 < r := hRhub.trans h1
  have hB' : (0 : ℝ) < B := by exact_mod_cast hB
  have hF := (lossSpec_range o B hB r Rhub Rtip p hRhub h1 h2 hp (by linarith)).1
  have hF' := (lossSpec_range o' B hB r Rhub Rtip p hRhub h1 h2 hp (by linarith)).1
  have hFF := lossSpec_fewer ho hB hRhub h1 h2 hp hp2
  have hs : 0 < sin p := sin_pos_of_pos_of_lt_pi hp (by linarith)
  have hcos : 0 < cos p := cos_pos_of_mem_Ioo ⟨by linarith, hp2⟩
  have ht : 0 < tan p := tan_pos_of_pos_of_lt_pi_div_two hp hp2
  have hn : 0 ≤ cl p + usedDrag o cd p * tan p := by positivity
  unfold sectionSide
  refine add_le_add ?_ (mul_le_mul_of_nonneg_left ?_ (by positivity))
  · unfold sectionWake
    rw [usedDrag_fewer ho]
    refine mul_le_mul_of_nonneg_left (wakeOf_loss hF hFF ?_ ?_) ht.le
    · unfold forceK
      positivity
    · unfold forceK
      field_simp
  · unfold sectionSwirl
    simp only [usedDrag_fewer ho, ho.wake]
    split_ifs with hw
    · refine mul_le_mul_of_nonneg_left ?_ (by positivity)
      have e : ∀ F : ℝ, 0 < F → cl p / (F * cos p) - usedDrag o cd p / (F * sin p)
          = (cl p * sin p - usedDrag o cd p * cos p) / (sin p * cos p) / F := by
        intro F hF
        field_simp
      rw [e _ hF, e _ hF']
      exact div_le_div_of_nonneg_left (div_nonneg (hct hw) (by positivity)) hF hFF
    · exact le_rfl

/-- With losses the inflow angle is smaller. -/
theorem losses_angle (ho : FewerLosses o o') (hB : 0 < B) (hRhub : 0 < Rhub) (h1 : Rhub < r) (h2 : r < Rtip) (hc : 0 < chord) (hVx : 0 < Vx)
    (hVy : 0 < Vy) (hatt : AttachedFlow o B r Rhub Rtip cl cd) (hp : p ∈ Set.Ioo 0 (π / 2)) (hq : q ∈ Set.Ioo 0 (π / 2))
    (hroot : (inductionFactors r chord Rhub Rtip p (cl p) (cd p) B Vx Vy o).fzero = 0)
    (hreg : RegularK (lossSpec o B r Rhub Rtip p) (kSpec o B r chord Rhub Rtip p (cl p) (cd p)))
    (hroot' : (inductionFactors r chord Rhub Rtip q (cl q) (cd q) B Vx Vy o').fzero = 0)
    (hreg' : RegularK (lossSpec o' B r Rhub Rtip q) (kSpec o' B r chord Rhub Rtip q (cl q) (cd q))) (hcl : 0 ≤ cl q)
    (hct : o.wakeRot = true → 0 ≤ cl q * sin q - usedDrag o cd q * cos q) : p ≤ q := by
  by_contra h
  push Not at h
  have hd : 0 ≤ usedDrag o cd q := by
    unfold usedDrag
    split_ifs with hu
    · exact (hatt.drag hu hq.1 le_rfl hq.2.le).1
    · exact le_rfl
  have e := sectionSide_root (cl := cl) (cd := cd) hB hRhub h1 h2 hVy hp.1 hp.2 hreg hroot
  have e' := sectionSide_root (cl := cl) (cd := cd) hB hRhub h1 h2 hVy hq.1 hq.2 hreg' hroot'
  have m := sectionSide_lt (cl := cl) (cd := cd) hB hRhub h1 h2 hc hVx hVy hatt hq.1 h hp.2 (hcl.trans (hatt.lift hq.1 h.le hp.2.le))
  have l := sectionSide_losses (cl := cl) (cd := cd) ho hB hRhub h1 h2 hc hVx hVy hq.1 hq.2 hcl hd hct
  linarith

end

/-! ## C118 -/

section
variable {R : Rotor ℝ} {o' : BemOpts} {Uinf Omega pitch az : ℝ} {i : ℕ}

/-- **C118** A station in attached flow, solved with tip and hub losses and with fewer of them: the losses lower the inflow angle and the
angle of attack (with wake rotation: if the station does not brake the rotor). Without wake rotation they lower the normal force, and
the tangential force if it drives the rotor. -/
theorem station_losses (bq bq' : RootFinder ℝ) (hbq : ExactRoots bq) (hbq' : ExactRoots bq') (hinv : R.inv = none) (hre : FixedRe R i)
    (hO : Omega ≠ 0) (hrho : 0 < R.rho) (ho : FewerLosses R.opts o') (hatt : AttachedStation R Uinf Omega pitch az i) (R1 R2 : Rotor ℝ)
    (L L' : LoadsOut ℝ) (h : distributedAeroLoads bq R Uinf Omega pitch az = (R1, .ok L))
    (h' : distributedAeroLoads bq' (R.withOpts o') Uinf Omega pitch az = (R2, .ok L'))
    (s s' : Station ℝ) (hs : L.stations[i]? = some s) (hs' : L'.stations[i]? = some s') (hw : s.warned = false) (hw' : s'.warned = false)
    (hphi : s.phi ∈ Set.Ioo 0 (π / 2)) (hphi' : s'.phi ∈ Set.Ioo 0 (π / 2)) (hcl : 0 < s.loads.cl) (hcl' : 0 ≤ s'.loads.cl)
    (hct : R.opts.wakeRot = true → R.opts.useCd = true → 0 ≤ s'.loads.cl * sin s'.phi - s'.loads.cd * cos s'.phi)
    (hreg : RegularAngle R Uinf Omega pitch az i s.phi) (hreg' : RegularAngle (R.withOpts o') Uinf Omega pitch az i s'.phi) :
    s.phi ≤ s'.phi ∧ s.loads.alpha ≤ s'.loads.alpha ∧ (R.opts.wakeRot = false →
      DragPolar (fun p => (stationPolar R Uinf Omega pitch az i p).1) (fun p => (stationPolar R Uinf Omega pitch az i p).2) →
      s.loads.Np ≤ s'.loads.Np ∧ (0 ≤ s.loads.Tp → s.loads.Tp ≤ s'.loads.Tp)) := by
  have hpi := pi_gt_three
  obtain ⟨Vx, Vy, hV⟩ : ∃ Vx Vy, rotorWind R Uinf Omega (az * (π / 180)) i = (Vx, Vy) := ⟨_, _, rfl⟩
  have hV' : rotorWind (R.withOpts o') Uinf Omega (az * (π / 180)) i = (Vx, Vy) := hV
  obtain ⟨hB, hRhub, h1, h2, hc, hVx, hVy, hflow⟩ := hatt
  rw [hV] at hVx hVy
  simp only at hVx hVy
  obtain ⟨f1, f2, f3, f4⟩ := station_facts hinv hre h hO hs hV hVx.ne' hVy.ne'
  obtain ⟨g1, g2, g3, g4⟩ := station_facts (R := R.withOpts o') hinv hre h' hO hs' hV' hVx.ne' hVy.ne'
  have e := stationResidual_const (Uinf := Uinf) (Omega := Omega) (pitch := pitch) (az := az) hinv hre
  have e' := stationResidual_const (R := R.withOpts o') (Uinf := Uinf) (Omega := Omega) (pitch := pitch) (az := az) hinv hre
  have hpol : stationPolar (R.withOpts o') Uinf Omega pitch az i = stationPolar R Uinf Omega pitch az i := rfl
  rw [hV] at e
  rw [hV', hpol] at e'
  rw [hpol] at g1 g2 g3
  unfold RegularAngle at hreg hreg'
  rw [hpol] at hreg'
  obtain ⟨z, -, -⟩ := exact_interval hbq h hO hs hw
  obtain ⟨z', -, -⟩ := exact_interval (R := R.withOpts o') hbq' h' hO hs' hw'
  rw [e] at z
  rw [e'] at z'
  set cl := fun p => (stationPolar R Uinf Omega pitch az i p).1 with hcldef
  set cd := fun p => (stationPolar R Uinf Omega pitch az i p).2 with hcddef
  have hclp : 0 < cl s.phi := by rw [f1] at hcl; exact hcl
  have hclq : 0 ≤ cl s'.phi := by rw [g1] at hcl'; exact hcl'
  have hsq : 0 < sin s'.phi := sin_pos_of_pos_of_lt_pi hphi'.1 (by linarith [hphi'.2])
  have hle : s.phi ≤ s'.phi := by
    refine losses_angle (cl := cl) (cd := cd) ho hB hRhub h1 h2 hc hVx hVy hflow hphi hphi' z hreg z' hreg' hclq fun hwr => ?_
    unfold usedDrag
    split_ifs with hu
    · have := hct hwr hu
      rwa [g1, g2] at this
    · have := mul_nonneg hclq hsq.le
      linarith
  refine ⟨hle, ?_, fun hwr hdrag => ?_⟩
  · have : s.loads.alpha * (π / 180) ≤ s'.loads.alpha * (π / 180) := by
      rw [f4, g4]
      simp only [Rotor.withOpts]
      linarith
    exact le_of_mul_le_mul_right this (by positivity)
  · have hflow' : AttachedFlow o' R.B (R.r i) R.Rhub R.Rtip cl cd :=
      ⟨hflow.lift, fun hu => hflow.drag (ho.drag ▸ hu), fun _ hw => absurd hw (by rw [ho.wake, hwr]; simp)⟩
    obtain ⟨-, t⟩ := section_speed (cl := cl) (cd := cd) hB hRhub h1 h2 hc hVx hVy hflow hphi z hreg hclp.le
    obtain ⟨-, t'⟩ := section_speed (cl := cl) (cd := cd) hB hRhub h1 h2 hc hVx hVy hflow' hphi' z' hreg' hclq
    have s0 : sectionSwirl R.opts R.B (R.r i) (R.chord i) R.Rhub R.Rtip cl cd s.phi = 0 := by simp [sectionSwirl, hwr]
    have s0' : sectionSwirl o' R.B (R.r i) (R.chord i) R.Rhub R.Rtip cl cd s'.phi = 0 := by simp [sectionSwirl, ho.wake, hwr]
    rw [s0, sub_zero, div_one] at t
    rw [s0', sub_zero, div_one] at t'
    rw [← show s.loads.W = _ from f3] at t
    rw [← show s'.loads.W = relSpeed s'.phi (inductionFactors (R.r i) (R.chord i) R.Rhub R.Rtip s'.phi (cl s'.phi) (cd s'.phi) R.B Vx Vy o').a
      (inductionFactors (R.r i) (R.chord i) R.Rhub R.Rtip s'.phi (cl s'.phi) (cd s'.phi) R.B Vx Vy o').ap Vx Vy from g3] at t'
    obtain ⟨a1, a2, a3, -⟩ := distributedAeroLoads_forces bq R R1 _ _ _ _ L h i s hs
    obtain ⟨b1, b2, b3, -⟩ := distributedAeroLoads_forces bq' _ R2 _ _ _ _ L' h' i s' hs'
    have hch : (R.withOpts o').chord i = R.chord i := rfl
    have hrho' : (R.withOpts o').rho = R.rho := rfl
    rw [hch] at b2 b3
    rw [hrho'] at b1
    have hK : 0 < R.rho / 2 * R.chord i := mul_pos (by linarith) hc
    rcases hle.eq_or_lt with heq | hlt
    · have hcp : 0 < cos s.phi := cos_pos_of_mem_Ioo ⟨by linarith [hphi.1], hphi.2⟩
      have hWW : s.loads.W ^ 2 = s'.loads.W ^ 2 := by
        rw [← heq, ← t] at t'
        exact (mul_right_cancel₀ (by positivity) t').symm
      have k1 : s'.loads.cl = s.loads.cl := by rw [f1, g1, heq]
      have k2 : s'.loads.cd = s.loads.cd := by rw [f2, g2, heq]
      have k3 : s'.loads.q = s.loads.q := by rw [a1, b1, hWW]
      exact ⟨by rw [a2, b2, k1, k2, k3, heq], fun _ => by rw [a3, b3, k1, k2, k3, heq]⟩
    · obtain ⟨n1, n2⟩ := forces_rise hphi.1 hlt hphi'.2 (by positivity) le_rfl t t' hclp (hflow.lift hphi.1 hlt.le hphi'.2.le)
        (hdrag.drag hphi.1 le_rfl hphi.2.le).1 (hdrag.drag hphi.1 hlt.le hphi'.2.le).2
      constructor
      · rw [a2, b2, a1, b1, f1, f2, g1, g2]
        have := mul_lt_mul_of_pos_left n1 hK
        refine le_of_lt (lt_of_eq_of_lt ?_ (lt_of_lt_of_eq this ?_)) <;> simp only [hcldef, hcddef] <;> ring
      · intro hT
        rw [a3, a1, f1, f2] at hT
        rw [a3, b3, a1, b1, f1, f2, g1, g2]
        have hW : 0 < s.loads.W ^ 2 := by
          have h3 : 0 < s.loads.W ^ 2 * cos s.phi ^ 2 := by rw [t]; positivity
          exact pos_of_mul_pos_left h3 (sq_nonneg _)
        have hT' : 0 ≤ cl s.phi * sin s.phi - cd s.phi * cos s.phi := by
          have h3 : 0 < R.rho * s.loads.W ^ 2 / 2 * R.chord i := by positivity
          exact (mul_nonneg_iff_of_pos_left h3).mp hT
        have := mul_lt_mul_of_pos_left (n2 (hdrag.glide hphi.1 hlt.le hphi'.2.le) hT') hK
        refine le_of_lt (lt_of_eq_of_lt ?_ (lt_of_lt_of_eq this ?_)) <;> simp only [hcldef, hcddef] <;> ring

end

/-- **C118** One condition evaluated with tip and hub losses and with fewer of them, wake rotation off, blades that point outward, attached
flow and driving stations at every azimuth (all solved, with lift): the losses lower the thrust, the blade root moment, the torque and
the power. -/
theorem evaluate_losses (bq : RootFinder ℝ) (hbq : ExactRoots bq) (R : Rotor ℝ) (o' : BemOpts) (cs : List (Cond ℝ)) (co : Bool) (o1 o2 : EvalOut ℝ)
    (h : (evaluate bq R cs co).2 = .ok o1) (h' : (evaluate bq (R.withOpts o') cs co).2 = .ok o2) (m : ℕ) (c : Cond ℝ) (x x' : CondOut ℝ)
    (hc : cs[m]? = some c) (hx : o1.conds[m]? = some x) (hx' : o2.conds[m]? = some x') (ho : FewerLosses R.opts o') (hwr : R.opts.wakeRot = false)
    (hinv : R.inv = none) (hre : ∀ i < R.n, FixedRe R i) (hO : c.Omega ≠ 0) (hrho : 0 < R.rho) (G : Outward R)
    (hatt : ∀ k < R.nSector, ∀ i < R.n, AttachedStation R c.Uinf c.Omega c.pitch (k * (360 / R.nSector)) i ∧
      DragPolar (fun p => (stationPolar R c.Uinf c.Omega c.pitch (k * (360 / R.nSector)) i p).1)
        (fun p => (stationPolar R c.Uinf c.Omega c.pitch (k * (360 / R.nSector)) i p).2))
    (hst : ∀ k < R.nSector, ∀ L, (distributedAeroLoads bq R c.Uinf c.Omega c.pitch (k * (360 / R.nSector))).2 = .ok L →
      ∀ (i : ℕ) (s : Station ℝ), L.stations[i]? = some s → s.warned = false ∧ s.phi ∈ Set.Ioo 0 (π / 2) ∧ 0 < s.loads.cl ∧ 0 ≤ s.loads.Tp ∧
        RegularAngle R c.Uinf c.Omega c.pitch (k * (360 / R.nSector)) i s.phi)
    (hst' : ∀ k < R.nSector, ∀ L, (distributedAeroLoads bq (R.withOpts o') c.Uinf c.Omega c.pitch (k * (360 / R.nSector))).2 = .ok L →
      ∀ (i : ℕ) (s : Station ℝ), L.stations[i]? = some s → s.warned = false ∧ s.phi ∈ Set.Ioo 0 (π / 2) ∧ 0 ≤ s.loads.cl ∧
        RegularAngle (R.withOpts o') c.Uinf c.Omega c.pitch (k * (360 / R.nSector)) i s.phi) :
    x.acc.T.val ≤ x'.acc.T.val ∧ x.acc.Mb.val ≤ x'.acc.Mb.val ∧ x.acc.Q.val ≤ x'.acc.Q.val ∧ (0 ≤ c.Omega → x.P.val ≤ x'.P.val) := by
  obtain ⟨L, hL, hT, hQ, hM, -⟩ := sector_averages h hc hx
  obtain ⟨L', hL', hT', hQ', hM', -⟩ := sector_averages h' hc hx'
  have hP := (evaluate_entry h hc hx).2.1
  have hP' := (evaluate_entry h' hc hx').2.1
  have hpi := pi_pos
  have hBr : (0 : ℝ) ≤ R.B := by positivity
  have hns : (0 : ℝ) ≤ R.nSector := by positivity
  have key : ∀ k < R.nSector, ∀ i < R.n, stationArr (L k).stations SecLoads.Np i ≤ stationArr (L' k).stations SecLoads.Np i ∧
      stationArr (L k).stations SecLoads.Tp i ≤ stationArr (L' k).stations SecLoads.Tp i := by
    intro k hk i hi
    have e1 : distributedAeroLoads bq R c.Uinf c.Omega c.pitch (k * (360 / R.nSector)) = (_, .ok (L k)) := Prod.ext rfl (hL k hk)
    have e2 : distributedAeroLoads bq (R.withOpts o') c.Uinf c.Omega c.pitch (k * (360 / R.nSector)) = (_, .ok (L' k)) := Prod.ext rfl (hL' k hk)
    obtain ⟨s, hs⟩ : ∃ s, (L k).stations[i]? = some s :=
      ⟨_, List.getElem?_eq_getElem (by rw [(solveStations_ok (distributedAeroLoads_stations e1)).1]; exact hi)⟩
    obtain ⟨s', hs'⟩ : ∃ s, (L' k).stations[i]? = some s :=
      ⟨_, List.getElem?_eq_getElem (by rw [(solveStations_ok (distributedAeroLoads_stations e2)).1]; exact hi)⟩
    obtain ⟨w, p, l, t, g⟩ := hst k hk _ (hL k hk) i s hs
    obtain ⟨w', p', l', g'⟩ := hst' k hk _ (hL' k hk) i s' hs'
    obtain ⟨-, -, f⟩ := station_losses bq bq hbq hbq hinv (hre i hi) hO hrho ho (hatt k hk i hi).1 _ _ _ _ e1 e2 s s' hs hs' w w' p p' l l'
      (fun a => absurd a (by rw [hwr]; simp)) g g'
    obtain ⟨n, d⟩ := f hwr (hatt k hk i hi).2
    simp only [stationArr, hs, hs', Option.map_some, Option.getD_some]
    exact ⟨n, d t⟩
  have mean : ∀ {f g : ℕ → ℝ}, (∀ k < R.nSector, f k ≤ g k) →
      (∑ k ∈ Finset.range R.nSector, f k) / R.nSector ≤ (∑ k ∈ Finset.range R.nSector, g k) / R.nSector := fun hfg =>
    div_le_div_of_nonneg_right (Finset.sum_le_sum fun k hk => hfg k (Finset.mem_range.mp hk)) hns
  have hmono := R.axis_mono
  have qle : x.acc.Q.val ≤ x'.acc.Q.val := by
    rw [hQ, hQ']
    refine mul_le_mul_of_nonneg_left (mean fun k hk => ?_) hBr
    exact trapz_mono (fun i hi => padded_load_mono (w := R.axis.z_az) (fun j hj => (key k hk j hj).2) G.height hi) fun i _ => hmono i
  refine ⟨?_, ?_, qle, fun hO => ?_⟩
  · rw [hT, hT']
    refine mul_le_mul_of_nonneg_left (mean fun k hk => ?_) hBr
    exact trapz_mono (fun i hi => padded_load_mono (w := fun i => cos (R.axis.cone i)) (fun j hj => (key k hk j hj).1) G.cone hi) fun i _ => hmono i
  · rw [hM, hM']
    refine mean fun k hk => ?_
    exact trapz_mono (fun i hi => padded_load_mono (w := R.axis.z_az) (fun j hj => (key k hk j hj).1) G.height hi) fun i _ => hmono i
  · rw [hP, hP']
    simp only [power, num_real]
    have := mul_le_mul_of_nonneg_right qle (show 0 ≤ c.Omega * (π / 30) by positivity)
    push_cast
    linarith

/-! ## An example -/

/-- `chordRotor` with tip losses. -/
noncomputable def tipLossRotor : Rotor ℝ := (chordRotor 1).withOpts ⟨true, false, true, false⟩

theorem tipLossRotor_straight : StraightRotor tipLossRotor :=
  have G := chordRotor_straight 1
  ⟨G.n, G.hub, G.first, G.inc, G.last, G.curve, G.curveTip, G.sweep, G.sweepTip, G.cone, G.radius, ⟨G.axial.1, G.axial.2, G.axial.3⟩⟩

theorem tipLossRotor_polar (U Omega az : ℝ) (i : ℕ) (p : ℝ) : stationPolar tipLossRotor U Omega 0 az i p = (sin p ^ 2, 0) := by
  simp [stationPolar, tipLossRotor, Rotor.withOpts, chordRotor, annulusRotor]

/-- The loss factor of station `i` of `tipLossRotor`. -/
noncomputable def tipLossRotorLoss (i : ℕ) (p : ℝ) : ℝ := prandtl 3 (10 - (6 + i)) (6 + i) p

private theorem tip_loss (i : ℕ) (p : ℝ) : lossSpec tipLossRotor.opts tipLossRotor.B (tipLossRotor.r i) tipLossRotor.Rhub tipLossRotor.Rtip p = tipLossRotorLoss i p := by
  simp [lossSpec, tipLossRotorLoss, tipLossRotor, Rotor.withOpts, chordRotor, annulusRotor, demoRotor]

theorem tip_loss_half {i : ℕ} (hi : i < 2) {p : ℝ} (h0 : 0 < p) (h1 : p ≤ π / 2) : 1 / 2 ≤ tipLossRotorLoss i p := by
  have hpi := pi_pos
  have hir : (i : ℝ) ≤ 1 := by exact_mod_cast (by omega : i ≤ 1)
  have hi0 : (0 : ℝ) ≤ i := by positivity
  have hs : 0 < sin p := sin_pos_of_pos_of_lt_pi h0 (by linarith)
  have hs1 := sin_le_one p
  have hx : 3 / 5 ≤ ((3 : ℕ) : ℝ) / 2 * (10 - (6 + i)) / ((6 + i) * sin p) := by
    push_cast
    rw [le_div_iff₀ (by positivity)]
    nlinarith
  unfold tipLossRotorLoss prandtl
  set x := ((3 : ℕ) : ℝ) / 2 * (10 - (6 + i)) / ((6 + i) * sin p)
  have he : exp (-x) ≤ cos (π / 4) := by
    have h3 : (8 / 5 : ℝ) ≤ exp x := by linarith [add_one_le_exp x]
    rw [exp_neg, cos_pi_div_four]
    have h4 : (exp x)⁻¹ ≤ (8 / 5 : ℝ)⁻¹ := inv_anti₀ (by norm_num) h3
    have h5 : (5 / 4 : ℝ) ≤ √2 := Real.le_sqrt_of_sq_le (by norm_num)
    norm_num at h4
    linarith
  have ha : π / 4 ≤ arccos (exp (-x)) := by
    rw [← arccos_cos (x := π / 4) (by positivity) (by linarith)]
    exact arccos_le_arccos he
  have := mul_le_mul_of_nonneg_left ha (show 0 ≤ 2 / π by positivity)
  refine le_trans (le_of_eq ?_) this
  field_simp
  norm_num

private theorem tip_k (i : ℕ) (p : ℝ) (hs : sin p ≠ 0) :
    kSpec tipLossRotor.opts tipLossRotor.B (tipLossRotor.r i) (tipLossRotor.chord i) tipLossRotor.Rhub tipLossRotor.Rtip p (sin p ^ 2) 0
      = cos p / (4 * tipLossRotorLoss i p) := by
  unfold kSpec cnSpec
  rw [tip_loss]
  have hr : (0 : ℝ) < 6 + i := by positivity
  have := pi_ne_zero
  rcases eq_or_ne (tipLossRotorLoss i p) 0 with h | h
  · simp [h]
  · simp only [tipLossRotor, Rotor.withOpts, chordRotor, annulusRotor, demoRotor, if_true, zero_mul, add_zero]
    field_simp
    ring

private theorem tip_k_range {i : ℕ} (hi : i < 2) {p : ℝ} (h0 : 0 < p) (h1 : p ≤ π / 2) :
    0 ≤ cos p / (4 * tipLossRotorLoss i p) ∧ cos p / (4 * tipLossRotorLoss i p) ≤ 1 / 2 := by
  have hF := tip_loss_half hi h0 h1
  have hc : 0 ≤ cos p := cos_nonneg_of_mem_Icc ⟨by linarith [pi_pos], h1⟩
  have hc1 := cos_le_one p
  refine ⟨by positivity, ?_⟩
  rw [div_le_iff₀ (by linarith)]
  linarith

private theorem tip_regular {i : ℕ} (hi : i < 2) {p : ℝ} (h0 : 0 < p) (h1 : p ≤ π / 2) : RegularK (tipLossRotorLoss i p) (cos p / (4 * tipLossRotorLoss i p)) := by
  obtain ⟨a, b⟩ := tip_k_range hi h0 h1
  exact ⟨by linarith, fun h => by linarith⟩

theorem tipLossRotor_regular (U Omega az : ℝ) {i : ℕ} (hi : i < 2) {p : ℝ} (h0 : 0 < p) (h1 : p ≤ π / 2) : RegularAngle tipLossRotor U Omega 0 az i p := by
  unfold RegularAngle
  rw [tipLossRotor_polar, tip_loss, tip_k i p (sin_pos_of_pos_of_lt_pi h0 (by linarith [pi_pos])).ne']
  exact tip_regular hi h0 h1

theorem tipLossRotor_residual (U az : ℝ) {i : ℕ} (hi : i < 2) {p : ℝ} (h0 : 0 < p) (h1 : p ≤ π / 2) :
    stationResidual tipLossRotor U (30 / π) 0 az i p = sin p * (1 + cos p / (4 * tipLossRotorLoss i p)) - U / (6 + i) * cos p := by
  have hpi := pi_pos
  obtain ⟨-, hk⟩ := tip_k_range hi h0 h1
  rw [stationResidual_const rfl (.inr fun _ _ _ => rfl), tipLossRotor_polar, tipLossRotor_straight.wind _ _ _ hi]
  rw [(indOut_eq _ _ _ _ _ _ _ _ _ _ _).2.2, tip_loss, tip_k i p (sin_pos_of_pos_of_lt_pi h0 (by linarith)).ne']
  have hreg := tip_regular hi h0 h1
  have hw := inv_axial_wake h0 (lt_of_lt_of_le (by norm_num) (tip_loss_half hi h0 h1)) hreg.1 hreg.2
  simp only [bemResidual, if_pos h0]
  rw [div_eq_mul_one_div (sin p), hw]
  have hwr : tipLossRotor.opts.wakeRot = false := rfl
  have hcone : tipLossRotor.precone = 0 := by simp [tipLossRotor, Rotor.withOpts, chordRotor, annulusRotor, demoRotor]
  have hr : tipLossRotor.r i = 6 + i := rfl
  rw [hwr, hcone, hr, cos_zero]
  unfold wakeOf
  rw [if_pos (by linarith)]
  simp only [Bool.false_eq_true, if_false]
  field_simp
  ring

private theorem tip_loss_continuous (i : ℕ) : ContinuousOn (tipLossRotorLoss i) (Set.Icc (1 / 1000000) (π / 2)) := by
  intro p hp
  have hs : sin p ≠ 0 := (sin_pos_of_pos_of_lt_pi (lt_of_lt_of_le (by norm_num) hp.1) (by linarith [pi_pos, hp.2])).ne'
  have hr : (6 + i : ℝ) ≠ 0 := by positivity
  refine ContinuousAt.continuousWithinAt ?_
  unfold tipLossRotorLoss prandtl
  refine continuousAt_const.mul (continuous_arccos.continuousAt.comp (continuous_exp.continuousAt.comp ?_))
  exact (continuousAt_const.div (continuousAt_const.mul continuous_sin.continuousAt) (mul_ne_zero hr hs)).neg

theorem tipLossRotor_station {U : ℝ} (hU : 1 ≤ U) {az : ℝ} {R' : Rotor ℝ} {L : LoadsOut ℝ}
    (h : distributedAeroLoads someRoot tipLossRotor U (30 / π) 0 az = (R', .ok L)) {i : ℕ} {s : Station ℝ} (hs : L.stations[i]? = some s) :
    s.warned = false ∧ s.phi ∈ Set.Ioo 0 (π / 2) := by
  have hpi := pi_gt_three
  have hi : i < 2 := (loads_station h hs).1
  have hir : (i : ℝ) ≤ 1 := by exact_mod_cast (by omega : i ≤ 1)
  have hi0 : (0 : ℝ) ≤ i := by positivity
  have hle : (1 / 1000000 : ℝ) ≤ π / 2 := by linarith
  have hx : 1 / 7 ≤ U / (6 + i) := div_le_div₀ (by linarith) hU (by linarith) (by linarith)
  obtain ⟨d, h1, -⟩ := solveStation_real (loads_station h hs).2
  have hf : stationErrf tipLossRotor (deg2rad 0) (rotorWind tipLossRotor U (30 / π) (deg2rad az)) i = stationResidual tipLossRotor U (30 / π) 0 az i := rfl
  unfold stationPhi at h1
  rw [if_neg (by simp [num_real]), hf, if_neg (by simp [tipLossRotor, Rotor.withOpts, chordRotor, annulusRotor, demoRotor])] at h1
  have e := fun phi h0 h1 => tipLossRotor_residual U az hi (p := phi) h0 h1
  set f := stationResidual tipLossRotor U (30 / π) 0 az i
  have f2 : f (π / 2) = 1 := by rw [e _ (by linarith) le_rfl, sin_pi_div_two, cos_pi_div_two]; norm_num
  have hsign : f (1 / 1000000) * f (π / 2) ≤ 0 := by
    rw [f2, mul_one, e _ (by norm_num) hle]
    obtain ⟨k0, k1⟩ := tip_k_range hi (p := 1 / 1000000) (by norm_num) hle
    have s1 : sin (1 / 1000000) ≤ 1 / 1000000 := sin_le (by norm_num)
    have s0 : 0 ≤ sin (1 / 1000000) := sin_nonneg_of_nonneg_of_le_pi (by norm_num) (by linarith)
    have c1 : 1 / 2 ≤ cos (1 / 1000000) := by
      have := one_sub_sq_div_two_le_cos (x := 1 / 1000000)
      norm_num at this ⊢
      linarith
    have h3 : sin (1 / 1000000) * (1 + cos (1 / 1000000) / (4 * tipLossRotorLoss i (1 / 1000000))) ≤ 1 / 1000000 * (1 + 1 / 2) :=
      mul_le_mul s1 (by linarith) (by linarith) (by norm_num)
    have h4 : 1 / 7 * (1 / 2) ≤ U / (6 + i) * cos (1 / 1000000) := mul_le_mul hx c1 (by norm_num) (by linarith)
    linarith
  have hcont : ContinuousOn f (Set.Icc (1 / 1000000) (π / 2)) := by
    refine ContinuousOn.congr (f := fun phi => sin phi * (1 + cos phi / (4 * tipLossRotorLoss i phi)) - U / (6 + i) * cos phi) ?_ ?_
    · refine ContinuousOn.sub (continuous_sin.continuousOn.mul (continuousOn_const.add (continuous_cos.continuousOn.div
        (continuousOn_const.mul (tip_loss_continuous i)) fun p hp => ?_))) (by fun_prop)
      have := tip_loss_half hi (lt_of_lt_of_le (by norm_num) hp.1) hp.2
      exact (by linarith : (0 : ℝ) < 4 * tipLossRotorLoss i p).ne'
    · intro phi hp
      exact e phi (lt_of_lt_of_le (by norm_num) hp.1) hp.2
  obtain ⟨p, e1, e2, e3⟩ := someRoot_finds f _ _ hle hcont hsign
  unfold solvePhi at h1
  rw [(bracket_choice f).1 hsign] at h1
  simp only [e1, Except.ok.injEq, Prod.mk.injEq] at h1
  rw [← h1.1]
  refine ⟨h1.2.symm, lt_of_lt_of_le (by norm_num) e3.1, lt_of_le_of_ne e3.2 fun h0 => ?_⟩
  rw [h0, f2] at e2
  norm_num at e2

/-- The hypotheses of `evaluate_losses` (and at each station those of `station_losses`) are met: both calls succeed, and the tip losses
lower thrust and power. -/
example : ∃ o o' x x', (evaluate someRoot tipLossRotor [⟨6, 30 / π, 0⟩] false).2 = .ok o ∧
    (evaluate someRoot (chordRotor 1) [⟨6, 30 / π, 0⟩] false).2 = .ok o' ∧ o.conds = [x] ∧ o'.conds = [x'] ∧
    x.acc.T.val ≤ x'.acc.T.val ∧ x.P.val ≤ x'.P.val := by
  have hpi := pi_gt_three
  have hO : 30 / π ≠ 0 := by positivity
  have hsin : ∀ {p : ℝ}, p ∈ Set.Ioo 0 (π / 2) → 0 < sin p := fun hp => sin_pos_of_pos_of_lt_pi hp.1 (by linarith [hp.2])
  have total : ∀ R : Rotor ℝ, R.iterRe ≠ 0 → R.derivatives = false → R.nSector ≠ 0 →
      ∃ o x, (evaluate someRoot R [⟨6, 30 / π, 0⟩] false).2 = .ok o ∧ o.conds = [x] := by
    intro R hit hd hns
    obtain ⟨o, x, h, -⟩ := evaluate_total someRoot_onlyValueError R ⟨6, 30 / π, 0⟩ false hit hd hO hns
    obtain ⟨x, hx⟩ := List.length_eq_one_iff.mp (evaluate_length h)
    exact ⟨o, x, h, hx⟩
  obtain ⟨o, x, h, hx⟩ := total tipLossRotor (by simp [tipLossRotor, Rotor.withOpts, chordRotor, annulusRotor, demoRotor]) rfl
    (by simp [tipLossRotor, Rotor.withOpts, chordRotor, annulusRotor, demoRotor])
  obtain ⟨o', x', h', hx'⟩ := total (chordRotor 1) (by simp [chordRotor, annulusRotor, demoRotor]) rfl (by simp [chordRotor, annulusRotor, demoRotor])
  have hsame : tipLossRotor.withOpts ⟨true, false, false, false⟩ = chordRotor 1 := rfl
  obtain ⟨t, -, -, p⟩ := evaluate_losses someRoot someRoot_exact tipLossRotor ⟨true, false, false, false⟩ _ false o o' h h' 0 _ x x' rfl
    (by rw [hx]; rfl) (by rw [hx']; rfl) ⟨rfl, rfl, by simp, by simp⟩ rfl rfl (fun _ _ => .inr fun _ _ _ => rfl) hO
    (by norm_num [tipLossRotor, Rotor.withOpts, chordRotor, annulusRotor, demoRotor]) tipLossRotor_straight.outward
    (fun k hk i hi => by
      have G := tipLossRotor_straight
      have hV := G.wind 6 (30 / π) (k * (360 / tipLossRotor.nSector) * (π / 180)) hi
      have hc := G.cos_pos
      have hri : 0 < tipLossRotor.r i := G.hub.trans (G.range hi).1
      refine ⟨⟨by simp [tipLossRotor, Rotor.withOpts, chordRotor, annulusRotor, demoRotor], G.hub, (G.range hi).1, (G.range hi).2,
        by simp only [tipLossRotor, Rotor.withOpts, chordRotor, annulusRotor]; positivity, by rw [hV]; positivity, by rw [hV]; positivity,
        attachedFlow_of_constant_drag (by simp [tipLossRotor, Rotor.withOpts, chordRotor, annulusRotor, demoRotor]) G.hub (G.range hi).1 (G.range hi).2
          (fun h0 h1 h2 => ?_) fun _ => ⟨0, le_rfl, fun _ _ _ => by simp only [tipLossRotor_polar]⟩⟩, ?_⟩
      · simp only [tipLossRotor_polar]
        exact pow_le_pow_left₀ (sin_nonneg_of_nonneg_of_le_pi h0.le (by linarith)) (sin_le_sin_of_le_of_le_pi_div_two (by linarith) h2 h1) 2
      · simp only [tipLossRotor_polar]
        exact ⟨fun _ _ _ => ⟨le_rfl, le_rfl⟩, fun _ _ _ => by simp⟩)
    (fun k hk L hL i s hs => by
      have e : distributedAeroLoads someRoot tipLossRotor 6 (30 / π) 0 (k * (360 / tipLossRotor.nSector)) = (_, .ok L) := Prod.ext rfl hL
      obtain ⟨w, hphi⟩ := tipLossRotor_station (by norm_num) e hs
      have hi := (loads_station e hs).1
      have hV := tipLossRotor_straight.wind 6 (30 / π) (k * (360 / tipLossRotor.nSector) * (π / 180)) hi
      have hc := tipLossRotor_straight.cos_pos
      have hri : 0 < tipLossRotor.r i := tipLossRotor_straight.hub.trans (tipLossRotor_straight.range hi).1
      obtain ⟨f1, f2, -⟩ := station_facts (R := tipLossRotor) rfl (.inr fun _ _ _ => rfl) e hO hs hV (by positivity) (by positivity)
      rw [tipLossRotor_polar] at f1 f2
      simp only at f1 f2
      have := hsin hphi
      refine ⟨w, hphi, by rw [f1]; positivity, ?_, tipLossRotor_regular _ _ _ hi hphi.1 hphi.2.le⟩
      obtain ⟨a1, -, a3, -⟩ := distributedAeroLoads_forces _ _ _ _ _ _ _ L e i s hs
      rw [a3, a1, f1, f2]
      have h1 : 0 ≤ tipLossRotor.rho := by norm_num [tipLossRotor, Rotor.withOpts, chordRotor, annulusRotor, demoRotor]
      have h2 : 0 ≤ tipLossRotor.chord i := by simp only [tipLossRotor, Rotor.withOpts, chordRotor, annulusRotor]; positivity
      rw [zero_mul, sub_zero]
      positivity)
    (fun k hk L hL i s hs => by
      rw [hsame] at hL ⊢
      have e : distributedAeroLoads someRoot (chordRotor 1) 6 (30 / π) 0 (k * (360 / tipLossRotor.nSector)) = (_, .ok L) := Prod.ext rfl hL
      obtain ⟨w, hphi⟩ := chordRotor_station (by norm_num) (by norm_num) (by norm_num) e hs
      have hi := (loads_station e hs).1
      have hV := (chordRotor_straight 1).wind 6 (30 / π) (k * (360 / tipLossRotor.nSector) * (π / 180)) hi
      have hc := (chordRotor_straight 1).cos_pos
      have hri : 0 < (chordRotor 1).r i := (chordRotor_straight 1).hub.trans ((chordRotor_straight 1).range hi).1
      obtain ⟨f1, -⟩ := station_facts (R := chordRotor 1) rfl (.inr fun _ _ _ => rfl) e hO hs hV (by positivity) (by positivity)
      rw [stationPolar_pitched (fun _ _ _ => rfl), chordRotor_polar] at f1
      refine ⟨w, hphi, by rw [f1]; positivity, ?_⟩
      have g := chordRotor_regular (w := 1) (by norm_num) i hphi.1 hphi.2.le
      unfold RegularAngle
      rw [stationPolar_pitched (fun _ _ _ => rfl)]
      exact g)
  exact ⟨o, o', x, x', h, h', hx, hx', t, p (by positivity)⟩

end Verif
