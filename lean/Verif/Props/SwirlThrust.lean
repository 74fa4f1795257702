import Verif.Props.Feather

/-!
# Thrust of an annulus with or without wake rotation

The momentum equation ties the thrust of an annulus to the force of the blades on it. It holds with wake rotation as well, where `1-a` is no longer
`tan φ Vy/Vx`. Used for C114, C116, C125 and C127.
-/

open Real

namespace Verif

/-- More blade force and less loss, more thrust. -/
theorem thrustOf_force {F1 F2 k1 k2 : ℝ} (h2 : 0 < F2) (h21 : F2 ≤ F1) (hF1 : F1 ≤ 1) (hk2 : 0 ≤ k2) (hk : F2 * k2 < F1 * k1) :
    thrustOf F2 (1 / wakeOf F2 k2) < thrustOf F1 (1 / wakeOf F1 k1) := by
  have hF10 : 0 < F1 := h2.trans_le h21
  have one : ∀ F : ℝ, wakeOf F 0 = 1 := fun F => by norm_num [wakeOf]
  obtain ⟨k0, e0⟩ : ∃ k0, F1 * k0 = F2 * k2 := ⟨F2 * k2 / F1, by field_simp⟩
  have hk0 : 0 ≤ k0 := by
    have : 0 ≤ F1 * k0 := by rw [e0]; positivity
    exact (mul_nonneg_iff_of_pos_left hF10).mp this
  have hk01 : k0 < k1 := by
    rw [← e0] at hk
    exact lt_of_mul_lt_mul_left hk hF10.le
  have w0 : 1 ≤ wakeOf F1 k0 := by rw [← one F1]; exact wakeOf_mono hF10 hk0
  have w2 : 1 ≤ wakeOf F2 k2 := by rw [← one F2]; exact wakeOf_mono h2 hk2
  have w01 : wakeOf F1 k0 ≤ wakeOf F1 k1 := wakeOf_mono hF10 hk01.le
  have w02 := wakeOf_loss h2 h21 hk0 e0
  have p0 : 0 < wakeOf F1 k0 := by linarith
  have p1 : 0 < wakeOf F1 k1 := by linarith
  have p2 : 0 < wakeOf F2 k2 := by linarith
  have t0 := thrustOf_wake hF10 p0
  have t1 := thrustOf_wake hF10 p1
  have t2 := thrustOf_wake h2 p2
  have s01 : wakeOf F1 k0 < wakeOf F1 k1 := by
    refine lt_of_le_of_ne w01 fun h => ?_
    rw [← h, ← t0] at t1
    have : 0 < F1 * (1 / wakeOf F1 k0) ^ 2 := by positivity
    nlinarith
  have hlow : thrustOf F2 (1 / wakeOf F2 k2) ≤ thrustOf F1 (1 / wakeOf F1 k0) := by
    rw [← t0, ← t2, show 4 * F2 * k2 = 4 * F1 * k0 by linarith]
    exact mul_le_mul_of_nonneg_left (pow_le_pow_left₀ (by positivity) (one_div_le_one_div_of_le p0 w02) 2) (by positivity)
  refine hlow.trans_lt (thrustOf_lt hF10 le_rfl hF1 (by positivity) (one_div_lt_one_div_of_lt p0 s01) ?_)
  rw [div_le_one p1]
  linarith

section
variable {o : BemOpts} {B B' : ℕ} {r chord chord' Rhub Rtip Vx Vy p q : ℝ} {cl cd cl' cd' : ℝ → ℝ}

/-- Lift and drag push the annulus back. -/
theorem kSpec_nonneg (hRhub : 0 < Rhub) (h1 : Rhub < r) (hB : 0 < B) (h2 : r < Rtip) (hc : 0 < chord) (ho : o.useCd = true) (hp : p ∈ Set.Ioo 0 (π / 2))
    (hcl : 0 ≤ cl p) (hcd : 0 ≤ cd p) : 0 ≤ kSpec o B r chord Rhub Rtip p (cl p) (cd p) := by
  have hr : 0 < r := hRhub.trans h1
  have hpi := pi_pos
  have hs : 0 < sin p := sin_pos_of_pos_of_lt_pi hp.1 (by linarith [hp.2])
  have hcp : 0 < cos p := cos_pos_of_mem_Ioo ⟨by linarith [hp.1], hp.2⟩
  have hF := (lossSpec_range o B hB r Rhub Rtip p hRhub h1 h2 hp.1 (by linarith [hp.2])).1
  unfold kSpec cnSpec
  rw [ho, if_pos rfl]
  positivity

theorem one_le_wakeOf {F k : ℝ} (hF : 0 < F) (hk : 0 ≤ k) : 1 ≤ wakeOf F k := by
  have h := wakeOf_mono hF hk
  have one : wakeOf F 0 = 1 := by norm_num [wakeOf]
  linarith

theorem loss_force (hRhub : 0 < Rhub) (h1 : Rhub < r) (hB : 0 < B) (h2 : r < Rtip) (ho : o.useCd = true) (hp : p ∈ Set.Ioo 0 (π / 2)) :
    lossSpec o B r Rhub Rtip p * kSpec o B r chord Rhub Rtip p (cl p) (cd p)
      = B * chord / (8 * π * r) * ((cl p * cos p + cd p * sin p) / sin p ^ 2) := by
  have hr : 0 < r := hRhub.trans h1
  have hpi := pi_pos
  have hs : 0 < sin p := sin_pos_of_pos_of_lt_pi hp.1 (by linarith [hp.2])
  have hF := (lossSpec_range o B hB r Rhub Rtip p hRhub h1 h2 hp.1 (by linarith [hp.2])).1
  unfold kSpec cnSpec
  rw [ho, if_pos rfl]
  field_simp
  ring

/-- The force of the blades at a solution is the thrust of the annulus. -/
theorem section_thrust_wake (hB : 0 < B) (hRhub : 0 < Rhub) (h1 : Rhub < r) (h2 : r < Rtip) (hVx : 0 < Vx) (hVy : 0 < Vy)
    (ho : o.useCd = true) (hp : p ∈ Set.Ioo 0 (π / 2)) (hroot : (inductionFactors r chord Rhub Rtip p (cl p) (cd p) B Vx Vy o).fzero = 0)
    (hreg : RegularK (lossSpec o B r Rhub Rtip p) (kSpec o B r chord Rhub Rtip p (cl p) (cd p)))
    (hwk : 0 < wakeOf (lossSpec o B r Rhub Rtip p) (kSpec o B r chord Rhub Rtip p (cl p) (cd p))) :
    let I := inductionFactors r chord Rhub Rtip p (cl p) (cd p) B Vx Vy o
    B * chord * (relSpeed p I.a I.ap Vx Vy ^ 2 * (cl p * cos p + cd p * sin p))
      = Vx ^ 2 * (2 * π * r) * thrustOf (lossSpec o B r Rhub Rtip p)
          (1 / wakeOf (lossSpec o B r Rhub Rtip p) (kSpec o B r chord Rhub Rtip p (cl p) (cd p))) := by
  intro I
  have hr : 0 < r := hRhub.trans h1
  have hpi := pi_pos
  have hs : 0 < sin p := sin_pos_of_pos_of_lt_pi hp.1 (by linarith [hp.2])
  have hF := (lossSpec_range o B hB r Rhub Rtip p hRhub h1 h2 hp.1 (by linarith [hp.2])).1
  have hk := inv_axial_wake hp.1 hF hreg.1 hreg.2
  rw [← (indOut_eq r chord Rhub Rtip p (cl p) (cd p) B Vx Vy o).1] at hk
  change 1 / (1 - I.a) = _ at hk
  set k := kSpec o B r chord Rhub Rtip p (cl p) (cd p) with hkdef
  set F := lossSpec o B r Rhub Rtip p with hFdef
  have ha : 1 - I.a = 1 / wakeOf F k := by rw [← hk, one_div_one_div]
  have ha1 : I.a ≠ 1 := by
    intro h
    rw [h, sub_self] at ha
    have : 0 < 1 / wakeOf F k := by positivity
    linarith
  obtain ⟨hc0, -, htri, -⟩ := root_triangle r chord Rhub Rtip p (cl p) (cd p) B Vx Vy o hVx.ne' hVy.ne' hp.1 (by linarith [hp.2]) ha1 hroot
  have w1 := (relSpeed_sq p I.a I.ap Vx Vy hs.ne' hc0 htri).1
  have e5 : 4 * F * k * sin p ^ 2 * (2 * π * r) = B * chord * (cl p * cos p + cd p * sin p) := by
    rw [hkdef]
    unfold kSpec cnSpec
    rw [ho, if_pos rfl, ← hFdef]
    field_simp
  rw [← thrustOf_wake hF hwk, ← ha]
  linear_combination (-(relSpeed p I.a I.ap Vx Vy ^ 2)) * e5 + (4 * F * k * (2 * π * r)) * w1

/-- The swirl and the drag of a section give the force of its blades on the annulus. -/
theorem loss_force_swirl (hRhub : 0 < Rhub) (h1 : Rhub < r) (hB : 0 < B) (h2 : r < Rtip) (ho : o.useCd = true) (hw : o.wakeRot = true)
    (hp : p ∈ Set.Ioo 0 (π / 2)) :
    lossSpec o B r Rhub Rtip p * kSpec o B r chord Rhub Rtip p (cl p) (cd p)
      = lossSpec o B r Rhub Rtip p * sectionSwirl o B r chord Rhub Rtip cl cd p * (cos p / sin p) ^ 2
        + B * chord / (8 * π * r) * (cd p / sin p / sin p ^ 2) := by
  have hr : 0 < r := hRhub.trans h1
  have hpi := pi_pos
  have hs : 0 < sin p := sin_pos_of_pos_of_lt_pi hp.1 (by linarith [hp.2])
  have hcp : 0 < cos p := cos_pos_of_mem_Ioo ⟨by linarith [hp.1], hp.2⟩
  have hF := (lossSpec_range o B hB r Rhub Rtip p hRhub h1 h2 hp.1 (by linarith [hp.2])).1
  rw [loss_force hRhub h1 hB h2 ho hp]
  unfold sectionSwirl usedDrag
  rw [hw, ho, if_pos rfl, if_pos rfl]
  generalize lossSpec o B r Rhub Rtip p = F at *
  field_simp
  linear_combination 8 * chord * cd p * sin_sq_add_cos_sq p

theorem sectionSwirl_nonneg (hRhub : 0 < Rhub) (h1 : Rhub < r) (hB : 0 < B) (h2 : r < Rtip) (hc : 0 < chord) (ho : o.useCd = true)
    (hp : p ∈ Set.Ioo 0 (π / 2)) (hct : o.wakeRot = true → 0 ≤ cl p * sin p - cd p * cos p) : 0 ≤ sectionSwirl o B r chord Rhub Rtip cl cd p := by
  have hr : 0 < r := hRhub.trans h1
  have hpi := pi_pos
  have sp : 0 < sin p := sin_pos_of_pos_of_lt_pi hp.1 (by linarith [hp.2])
  have cp : 0 < cos p := cos_pos_of_mem_Ioo ⟨by linarith [hp.1], hp.2⟩
  have hF := (lossSpec_range o B hB r Rhub Rtip p hRhub h1 h2 hp.1 (by linarith [hp.2])).1
  unfold sectionSwirl usedDrag
  simp only
  split_ifs with hw
  · have a := hct hw
    generalize lossSpec o B r Rhub Rtip p = F at *
    have b : cl p / (F * cos p) - cd p / (F * sin p) = (cl p * sin p - cd p * cos p) / (F * (sin p * cos p)) := by field_simp
    rw [b]
    exact mul_nonneg (by positivity) (div_nonneg a (by positivity))
  · exact le_rfl

/-- Two solved sections in the same wind. The one with the smaller inflow angle takes more thrust if its loss is not larger; with wake rotation, if its
drag is not smaller in proportion to `sin φ` and the other section does not brake the rotor. -/
theorem thrust_smaller_angle (hB : 0 < B) (hB' : 0 < B') (hRhub : 0 < Rhub) (h1 : Rhub < r) (h2 : r < Rtip) (hc : 0 < chord)
    (hVx : 0 < Vx) (hVy : 0 < Vy) (ho : o.useCd = true) (hp : p ∈ Set.Ioo 0 (π / 2))
    (hroot : (inductionFactors r chord Rhub Rtip p (cl p) (cd p) B Vx Vy o).fzero = 0)
    (hreg : RegularK (lossSpec o B r Rhub Rtip p) (kSpec o B r chord Rhub Rtip p (cl p) (cd p))) (hcl : 0 ≤ cl p) (hcd : 0 ≤ cd p)
    (hct : o.wakeRot = true → 0 ≤ cl p * sin p - cd p * cos p) (hq : q ∈ Set.Ioo 0 (π / 2))
    (hroot' : (inductionFactors r chord' Rhub Rtip q (cl' q) (cd' q) B' Vx Vy o).fzero = 0)
    (hreg' : RegularK (lossSpec o B' r Rhub Rtip q) (kSpec o B' r chord' Rhub Rtip q (cl' q) (cd' q))) (hlt : q < p)
    (hloss : lossSpec o B r Rhub Rtip p ≤ lossSpec o B' r Rhub Rtip q)
    (hdrag : o.wakeRot = true → B * chord * (cd p / sin p) ≤ B' * chord' * (cd' q / sin q)) :
    let I := inductionFactors r chord Rhub Rtip p (cl p) (cd p) B Vx Vy o
    let J := inductionFactors r chord' Rhub Rtip q (cl' q) (cd' q) B' Vx Vy o
    B * chord * (relSpeed p I.a I.ap Vx Vy ^ 2 * (cl p * cos p + cd p * sin p))
      < B' * chord' * (relSpeed q J.a J.ap Vx Vy ^ 2 * (cl' q * cos q + cd' q * sin q)) := by
  intro I J
  have hr : 0 < r := hRhub.trans h1
  have hpi := pi_pos
  have hBr : (0 : ℝ) < B := by exact_mod_cast hB
  have hBr' : (0 : ℝ) < B' := by exact_mod_cast hB'
  have sp : 0 < sin p := sin_pos_of_pos_of_lt_pi hp.1 (by linarith [hp.2])
  have cp : 0 < cos p := cos_pos_of_mem_Ioo ⟨by linarith [hp.1], hp.2⟩
  have sq0 : 0 < sin q := sin_pos_of_pos_of_lt_pi hq.1 (by linarith [hq.2])
  have spq : sin q < sin p := sin_lt_sin_of_lt_of_le_pi_div_two (by linarith [hq.1]) hp.2.le hlt
  have cpq : cos p < cos q := cos_lt_cos_of_nonneg_of_le_pi_div_two hq.1.le hp.2.le hlt
  have tq : 0 < tan q := tan_pos_of_pos_of_lt_pi_div_two hq.1 hq.2
  have htan : tan q < tan p := tan_lt_tan_of_nonneg_of_lt_pi_div_two hq.1.le hp.2 hlt
  have Fp := lossSpec_range o B hB r Rhub Rtip p hRhub h1 h2 hp.1 (by linarith [hp.2])
  have Fq := lossSpec_range o B' hB' r Rhub Rtip q hRhub h1 h2 hq.1 (by linarith [hq.2])
  have k0 := kSpec_nonneg (chord := chord) (cl := cl) (cd := cd) hRhub h1 hB h2 hc ho hp hcl hcd
  have w1 := one_le_wakeOf Fp.1 k0
  have e := section_root hB hRhub h1 h2 hVy hp.1 hp.2 hreg hroot
  have e' := section_root hB' hRhub h1 h2 hVy hq.1 hq.2 hreg' hroot'
  unfold sectionWake at e e'
  simp only at e e'
  rw [← kSpec_forceK hB hRhub h1 h2 hp.1 hp.2] at e
  rw [← kSpec_forceK hB' hRhub h1 h2 hq.1 hq.2] at e'
  have key : 0 < wakeOf (lossSpec o B' r Rhub Rtip q) (kSpec o B' r chord' Rhub Rtip q (cl' q) (cd' q)) ∧
      thrustOf (lossSpec o B r Rhub Rtip p) (1 / wakeOf (lossSpec o B r Rhub Rtip p) (kSpec o B r chord Rhub Rtip p (cl p) (cd p)))
        < thrustOf (lossSpec o B' r Rhub Rtip q) (1 / wakeOf (lossSpec o B' r Rhub Rtip q) (kSpec o B' r chord' Rhub Rtip q (cl' q) (cd' q))) := by
    rcases le_or_gt (sectionSwirl o B' r chord' Rhub Rtip cl' cd' q) (sectionSwirl o B r chord Rhub Rtip cl cd p) with hS | hS
    · have hge : tan p * wakeOf (lossSpec o B r Rhub Rtip p) (kSpec o B r chord Rhub Rtip p (cl p) (cd p))
          ≤ tan q * wakeOf (lossSpec o B' r Rhub Rtip q) (kSpec o B' r chord' Rhub Rtip q (cl' q) (cd' q)) := by
        rw [e, e']
        exact mul_le_mul_of_nonneg_left (by linarith) (by positivity)
      generalize wakeOf (lossSpec o B r Rhub Rtip p) (kSpec o B r chord Rhub Rtip p (cl p) (cd p)) = v at *
      generalize wakeOf (lossSpec o B' r Rhub Rtip q) (kSpec o B' r chord' Rhub Rtip q (cl' q) (cd' q)) = v' at *
      have hv : 0 < v := by linarith
      have hlt' : v < v' := by
        have : tan q * v < tan q * v' := (mul_lt_mul_of_pos_right htan hv).trans_le hge
        exact lt_of_mul_lt_mul_left this tq.le
      have hv' : 0 < v' := hv.trans hlt'
      refine ⟨hv', thrustOf_lt Fp.1 hloss Fq.2 (by positivity) (one_div_lt_one_div_of_lt hv hlt') ?_⟩
      rw [div_le_one hv']
      linarith
    · have hw : o.wakeRot = true := by
        by_contra hn
        simp [sectionSwirl, hn] at hS
      have S0 := sectionSwirl_nonneg (cl := cl) (cd := cd) hRhub h1 hB h2 hc ho hp hct
      have hk : lossSpec o B r Rhub Rtip p * kSpec o B r chord Rhub Rtip p (cl p) (cd p)
          < lossSpec o B' r Rhub Rtip q * kSpec o B' r chord' Rhub Rtip q (cl' q) (cd' q) := by
        rw [loss_force_swirl hRhub h1 hB h2 ho hw hp, loss_force_swirl hRhub h1 hB' h2 ho hw hq]
        have hd := hdrag hw
        have Fp0 := Fp.1
        have Fq0 := Fq.1
        generalize sectionSwirl o B r chord Rhub Rtip cl cd p = S at *
        generalize sectionSwirl o B' r chord' Rhub Rtip cl' cd' q = S' at *
        generalize lossSpec o B r Rhub Rtip p = F at *
        generalize lossSpec o B' r Rhub Rtip q = F' at *
        refine add_lt_add_of_lt_of_le ?_ ?_
        · refine mul_lt_mul (mul_lt_mul' hloss hS S0 Fq0) ?_ (by positivity) (by have := S0.trans hS.le; positivity)
          refine pow_le_pow_left₀ (by positivity) ?_ 2
          exact div_le_div₀ (cp.trans cpq).le cpq.le sq0 spq.le
        · have hs2 : sin q ^ 2 ≤ sin p ^ 2 := pow_le_pow_left₀ sq0.le spq.le 2
          have h0 : 0 ≤ B * chord * (cd p / sin p) := by positivity
          have h3 := div_le_div₀ (h0.trans hd) hd (show 0 < sin q ^ 2 by positivity) hs2
          have h4 := div_le_div_of_nonneg_right h3 (show 0 ≤ 8 * π * r by positivity)
          refine le_of_eq_of_le ?_ (le_of_le_of_eq h4 ?_) <;> ring
      have k1 : 0 ≤ kSpec o B' r chord' Rhub Rtip q (cl' q) (cd' q) := by
        have : 0 < lossSpec o B' r Rhub Rtip q * kSpec o B' r chord' Rhub Rtip q (cl' q) (cd' q) := (mul_nonneg Fp.1.le k0).trans_lt hk
        exact ((mul_pos_iff_of_pos_left Fq.1).mp this).le
      exact ⟨one_pos.trans_le (one_le_wakeOf Fq.1 k1), thrustOf_force Fp.1 hloss Fq.2 k0 hk⟩
  have t1 := section_thrust_wake hB hRhub h1 h2 hVx hVy ho hp hroot hreg (by linarith)
  have t2 := section_thrust_wake hB' hRhub h1 h2 hVx hVy ho hq hroot' hreg' key.1
  have hcmp := mul_lt_mul_of_pos_left key.2 (show 0 < Vx ^ 2 * (2 * π * r) by positivity)
  rw [← t1, ← t2] at hcmp
  exact hcmp

/-- In attached flow drag over `sin φ` falls as the inflow angle grows. -/
theorem drag_over_sin (hB : 0 < B) (hRhub : 0 < Rhub) (h1 : Rhub < r) (h2 : r < Rtip) (ho : o.useCd = true) (hw : o.wakeRot = true)
    (hatt : AttachedFlow o B r Rhub Rtip cl cd) (hq : 0 < q) (hqp : q ≤ p) (hp : p < π / 2) : cd p / sin p ≤ cd q / sin q := by
  have hpi := pi_pos
  have hd := hatt.swirl ho hw hq hqp hp.le
  have sp : 0 < sin p := sin_pos_of_pos_of_lt_pi (hq.trans_le hqp) (by linarith)
  have sq0 : 0 < sin q := sin_pos_of_pos_of_lt_pi hq (by linarith)
  have Fp := (lossSpec_range o B hB r Rhub Rtip p hRhub h1 h2 (hq.trans_le hqp) (by linarith)).1
  have Fq := (lossSpec_range o B hB r Rhub Rtip q hRhub h1 h2 hq (by linarith)).1
  have Fqp := lossSpec_anti (o := o) hB hRhub h1 h2 hq hqp hp.le
  have d0 : 0 ≤ cd p := (hatt.drag ho (hq.trans_le hqp) le_rfl hp.le).1
  generalize lossSpec o B r Rhub Rtip p = F at *
  generalize lossSpec o B r Rhub Rtip q = F' at *
  have h3 : cd p / sin p = F * (cd p / (F * sin p)) := by field_simp
  have h4 : cd q / sin q = F' * (cd q / (F' * sin q)) := by field_simp
  rw [h3, h4]
  exact mul_le_mul Fqp hd (by positivity) Fq.le

/-- The thrust of an annulus grows when the blades get wider and the inflow angle falls. -/
theorem thrust_wider (hB : 0 < B) (hRhub : 0 < Rhub) (h1 : Rhub < r) (h2 : r < Rtip) (hc : 0 < chord) (hcc : chord ≤ chord') (hVx : 0 < Vx) (hVy : 0 < Vy)
    (ho : o.useCd = true) (hatt : AttachedFlow o B r Rhub Rtip cl cd) (hp : p ∈ Set.Ioo 0 (π / 2))
    (hroot : (inductionFactors r chord Rhub Rtip p (cl p) (cd p) B Vx Vy o).fzero = 0)
    (hreg : RegularK (lossSpec o B r Rhub Rtip p) (kSpec o B r chord Rhub Rtip p (cl p) (cd p))) (hcl : 0 ≤ cl p)
    (hct : o.wakeRot = true → 0 ≤ cl p * sin p - cd p * cos p) (hq : q ∈ Set.Ioo 0 (π / 2))
    (hroot' : (inductionFactors r chord' Rhub Rtip q (cl q) (cd q) B Vx Vy o).fzero = 0)
    (hreg' : RegularK (lossSpec o B r Rhub Rtip q) (kSpec o B r chord' Rhub Rtip q (cl q) (cd q))) (hlt : q < p) :
    let I := inductionFactors r chord Rhub Rtip p (cl p) (cd p) B Vx Vy o
    let J := inductionFactors r chord' Rhub Rtip q (cl q) (cd q) B Vx Vy o
    chord * (relSpeed p I.a I.ap Vx Vy ^ 2 * (cl p * cos p + cd p * sin p))
      < chord' * (relSpeed q J.a J.ap Vx Vy ^ 2 * (cl q * cos q + cd q * sin q)) := by
  intro I J
  have hBr : (0 : ℝ) < B := by exact_mod_cast hB
  have hpi := pi_pos
  have sp : 0 < sin p := sin_pos_of_pos_of_lt_pi hp.1 (by linarith [hp.2])
  have d0 : 0 ≤ cd p := (hatt.drag ho hp.1 le_rfl hp.2.le).1
  have h := thrust_smaller_angle hB hB hRhub h1 h2 hc hVx hVy ho hp hroot hreg hcl d0 hct hq hroot' hreg' hlt
    (lossSpec_anti (o := o) hB hRhub h1 h2 hq.1 hlt.le hp.2.le) fun hw =>
      mul_le_mul (by gcongr) (drag_over_sin hB hRhub h1 h2 ho hw hatt hq.1 hlt.le hp.2) (by positivity) (by have := hc.trans_le hcc; positivity)
  simp only [mul_assoc] at h
  exact lt_of_mul_lt_mul_left h hBr.le

end

/-! ## Pitching -/

section
variable {R : Rotor ℝ} {Uinf Omega pitch pitch' az : ℝ} {i : ℕ}

/-- **C114** Two pitch settings at which the station is solved between 0 and 90 degrees without negative lift, wake rotation on or off: the normal force is
smaller at the larger pitch. With wake rotation the station must not brake the rotor there. -/
theorem station_feathers_swirl (bq : RootFinder ℝ) (hbq : ExactRoots bq) (hinv : R.inv = none) (hre : FixedRe R i) (hO : Omega ≠ 0)
    (hrho : 0 < R.rho) (hB : 0 < R.B) (hRhub : 0 < R.Rhub) (h1 : R.Rhub < R.r i) (h2 : R.r i < R.Rtip) (hc : 0 < R.chord i)
    (hfront : 0 < (rotorWind R Uinf Omega (az * (π / 180)) i).1) (hsense : 0 < (rotorWind R Uinf Omega (az * (π / 180)) i).2)
    (hpitch : pitch < pitch') (hrise : RisingStation R (stationRe R Uinf Omega az i) i pitch pitch') (R1 R2 : Rotor ℝ) (L L' : LoadsOut ℝ)
    (h : distributedAeroLoads bq R Uinf Omega pitch az = (R1, .ok L)) (h' : distributedAeroLoads bq R Uinf Omega pitch' az = (R2, .ok L'))
    (s s' : Station ℝ) (hs : L.stations[i]? = some s) (hs' : L'.stations[i]? = some s') (hw : s.warned = false) (hw' : s'.warned = false)
    (hphi : s.phi ∈ Set.Ioo 0 (π / 2)) (hcl : 0 ≤ s.loads.cl) (hreg : RegularAngle R Uinf Omega pitch az i s.phi)
    (hphi' : s'.phi ∈ Set.Ioo 0 (π / 2)) (r2 : RegularAngle R Uinf Omega pitch' az i s'.phi) (hu : R.opts.useCd = true)
    (hcl' : 0 ≤ s'.loads.cl) (hct : R.opts.wakeRot = true → 0 ≤ s'.loads.Tp) : s'.loads.Np < s.loads.Np := by
  have hpi := pi_gt_three
  obtain ⟨Vx, Vy, hV⟩ : ∃ Vx Vy, rotorWind R Uinf Omega (az * (π / 180)) i = (Vx, Vy) := ⟨_, _, rfl⟩
  rw [hV] at hfront hsense
  simp only at hfront hsense
  have hri : 0 < R.r i := hRhub.trans h1
  have hBr : (0 : ℝ) < R.B := by exact_mod_cast hB
  have htt : R.theta i + pitch * (π / 180) < R.theta i + pitch' * (π / 180) := by
    have := mul_lt_mul_of_pos_right hpitch (show (0 : ℝ) < π / 180 by positivity)
    linarith
  set CL := fun a => ((R.af i).evaluate a (stationRe R Uinf Omega az i)).1 with hCLdef
  set CD := fun a => ((R.af i).evaluate a (stationRe R Uinf Omega az i)).2 with hCDdef
  obtain ⟨f1, f2, f3, f4⟩ := station_facts hinv hre h hO hs hV hfront.ne' hsense.ne'
  obtain ⟨g1, g2, g3, g4⟩ := station_facts hinv hre h' hO hs' hV hfront.ne' hsense.ne'
  have e := stationResidual_const (Uinf := Uinf) (Omega := Omega) (pitch := pitch) (az := az) hinv hre
  have e' := stationResidual_const (Uinf := Uinf) (Omega := Omega) (pitch := pitch') (az := az) hinv hre
  rw [hV] at e e'
  generalize ht : R.theta i + pitch * (π / 180) = t at *
  generalize ht' : R.theta i + pitch' * (π / 180) = t' at *
  have hCL : RisingLift R.opts CL CD (-t') (π / 2 - t) := by
    have := hrise
    unfold RisingStation at this
    rwa [ht, ht'] at this
  have c1 : ∀ p, (stationPolar R Uinf Omega pitch az i p).1 = CL (p - t) := fun p => by rw [← ht]; rfl
  have c2 : ∀ p, (stationPolar R Uinf Omega pitch az i p).2 = CD (p - t) := fun p => by rw [← ht]; rfl
  have d1 : ∀ p, (stationPolar R Uinf Omega pitch' az i p).1 = CL (p - t') := fun p => by rw [← ht']; rfl
  have d2 : ∀ p, (stationPolar R Uinf Omega pitch' az i p).2 = CD (p - t') := fun p => by rw [← ht']; rfl
  unfold RegularAngle at hreg r2
  simp only [c1, c2, d1, d2] at e e' f1 f2 f3 g1 g2 g3 hreg r2
  obtain ⟨z, -, -⟩ := exact_interval hbq h hO hs hw
  obtain ⟨z', -, -⟩ := exact_interval hbq h' hO hs' hw'
  rw [e] at z
  rw [e'] at z'
  rw [f1] at hcl
  obtain ⟨hpos, hq⟩ := hphi'
  obtain ⟨hlt, hal⟩ := pitch_angles hB hRhub h1 h2 hc hfront hsense htt hCL hphi z hreg hcl ⟨hpos, hq⟩ z' r2
  obtain ⟨a1, a2, -⟩ := distributedAeroLoads_forces bq R R1 _ _ _ _ L h i s hs
  obtain ⟨b1, b2, b3, -⟩ := distributedAeroLoads_forces bq R R2 _ _ _ _ L' h' i s' hs'
  obtain ⟨c, hc0, ec⟩ := hCL.drag hu
  have k1 := ec (s.phi - t) ⟨by linarith [hphi.1], by linarith [hphi.2]⟩
  have k2 := ec (s'.phi - t') ⟨by linarith, by linarith⟩
  have hatt : AttachedFlow R.opts R.B (R.r i) R.Rhub R.Rtip (fun f => CL (f - t')) (fun f => CD (f - t')) := by
    refine attachedFlow_of_constant_drag hB hRhub h1 h2 (fun a b c => ?_) fun hu => ?_
    · exact hCL.lift.monotoneOn ⟨by linarith, by linarith⟩ ⟨by linarith, by linarith⟩ (by linarith)
    · exact ⟨c, hc0, fun y h0 h1 => ec _ ⟨by linarith, by linarith⟩⟩
  have hl := hcl'
  rw [g1] at hl
  have hC : 0 < s'.loads.W ^ 2 := by
    have hsp := section_speed hB hRhub h1 h2 hc hfront hsense hatt ⟨hpos, hq⟩ z' r2 hl
    simp only at hsp
    rw [← g3] at hsp
    have : 0 < (Vy / (1 - sectionSwirl R.opts R.B (R.r i) (R.chord i) R.Rhub R.Rtip (fun f => CL (f - t')) (fun f => CD (f - t')) s'.phi)) ^ 2 :=
      pow_pos (div_pos hsense hsp.1) 2
    rw [← hsp.2] at this
    exact pos_of_mul_pos_left this (sq_nonneg _)
  have ss : 0 < sin s.phi := sin_pos_of_pos_of_lt_pi hphi.1 (by linarith [hphi.2])
  have sle : sin s.phi ≤ sin s'.phi := sin_le_sin_of_le_of_le_pi_div_two (by linarith [hphi.1]) hq.le hlt.le
  have key := thrust_smaller_angle (cl := fun f => CL (f - t')) (cd := fun f => CD (f - t')) (cl' := fun f => CL (f - t)) (cd' := fun f => CD (f - t))
    hB hB hRhub h1 h2 hc hfront hsense hu ⟨hpos, hq⟩ z' r2 hl (by rw [k2]; exact hc0)
    (fun hw => by
      have ht := hct hw
      rw [b3, b1, g1, g2] at ht
      exact nonneg_of_mul_nonneg_right ht (by positivity))
    hphi z hreg hlt (lossSpec_anti (o := R.opts) hB hRhub h1 h2 hphi.1 hlt.le hq.le)
    (fun _ => by
      rw [k1, k2]
      gcongr)
  simp only at key
  rw [← f3, ← g3] at key
  rw [a2, b2, a1, b1, f1, f2, g1, g2]
  have h3 := mul_lt_mul_of_pos_left key (show 0 < R.rho / 2 / R.B by positivity)
  refine lt_of_eq_of_lt ?_ (lt_of_lt_of_eq h3 ?_) <;> field_simp

end

/-- At this condition, if there is wake rotation, no station brakes the rotor. -/
def Drives (bq : RootFinder ℝ) (R : Rotor ℝ) (Uinf Omega pitch : ℝ) : Prop :=
  R.opts.wakeRot = true → ∀ k < R.nSector, ∀ L, (distributedAeroLoads bq R Uinf Omega pitch (k * (360 / R.nSector))).2 = .ok L →
    ∀ (i : ℕ) (s : Station ℝ), L.stations[i]? = some s → 0 ≤ s.loads.Tp

end Verif
