import Verif.Props.WindSpeed

/-!
# Pitching the blades (C114)
-/

namespace Verif

open Real

/-! ## Thrust relation -/

theorem wakeOf_strict {F k1 k2 : ℝ} (hF : 0 < F) (h : k1 < k2) : wakeOf F k1 < wakeOf F k2 := by
  unfold wakeOf
  split_ifs with h1 h2 h2
  · linarith
  · push Not at h2
    have h3 : F < √(2 * F * k2 - (4 / 3 - F) * F) := by
      rw [Real.lt_sqrt hF.le]
      nlinarith [mul_pos hF (sub_pos.mpr h2)]
    unfold buhlWake
    linarith
  · linarith
  · push Not at h1 h2
    have h3 : √(2 * F * k1 - (4 / 3 - F) * F) < √(2 * F * k2 - (4 / 3 - F) * F) := by
      apply Real.sqrt_lt_sqrt
      · nlinarith [mul_pos hF (sub_pos.mpr h1), sq_nonneg F]
      · nlinarith
    unfold buhlWake
    linarith

/-- Thrust coefficient of an annulus over `u = 1-a`: momentum theory and Buhl's parabola. -/
noncomputable def thrustOf (F u : ℝ) : ℝ :=
  if 3 / 5 ≤ u then 4 * F * (u * (1 - u)) else 2 - 4 * (5 / 3 - F) * u + 2 * (25 / 9 - 2 * F) * u ^ 2

theorem thrustOf_wake {F k : ℝ} (hF : 0 < F) (hw : 0 < wakeOf F k) : 4 * F * k * (1 / wakeOf F k) ^ 2 = thrustOf F (1 / wakeOf F k) := by
  unfold thrustOf
  unfold wakeOf at *
  split_ifs at hw ⊢ with h1 h2 h2
  · field_simp
    ring
  · exact absurd (by rw [le_div_iff₀ hw]; linarith : (3 / 5 : ℝ) ≤ 1 / (1 + k)) h2
  · push Not at h1
    exfalso
    have h3 : F < √(2 * F * k - (4 / 3 - F) * F) := by
      rw [Real.lt_sqrt hF.le]
      nlinarith [mul_pos hF (sub_pos.mpr h1)]
    rw [le_div_iff₀ hw] at h2
    unfold buhlWake at h2
    linarith
  · push Not at h1
    have hs : √(2 * F * k - (4 / 3 - F) * F) ^ 2 = 2 * F * k - (4 / 3 - F) * F :=
      Real.sq_sqrt (by nlinarith [mul_pos hF (sub_pos.mpr h1), sq_nonneg F])
    have e : √(2 * F * k - (4 / 3 - F) * F) = buhlWake F k - 5 / 3 + F := by unfold buhlWake; ring
    rw [e] at hs
    generalize buhlWake F k = v at *
    have h4 : 4 * F * k = 2 * (v - 5 / 3 + F) ^ 2 + 2 * ((4 / 3 - F) * F) := by linarith
    rw [h4]
    field_simp
    ring

/-- The thrust falls with the loss factor and with the speed in the disc. -/
theorem thrustOf_lt {F1 F2 u1 u2 : ℝ} (h2 : 0 < F2) (h21 : F2 ≤ F1) (hF1 : F1 ≤ 1) (hu : 0 < u1) (h12 : u1 < u2) (h1 : u1 ≤ 1) :
    thrustOf F2 u2 < thrustOf F1 u1 := by
  have hF10 : 0 < F1 := h2.trans_le h21
  unfold thrustOf
  split_ifs with a b b
  · -- momentum theory
    rcases le_or_gt 1 u2 with h | h
    · rcases lt_or_eq_of_le h1 with h1 | rfl
      · have : 0 < F1 * (u1 * (1 - u1)) := mul_pos hF10 (mul_pos hu (by linarith))
        have : F2 * (u2 * (1 - u2)) ≤ 0 := mul_nonpos_of_nonneg_of_nonpos h2.le (mul_nonpos_of_nonneg_of_nonpos (by linarith) (by linarith))
        linarith
      · have : F2 * (u2 * (1 - u2)) < 0 := mul_neg_of_pos_of_neg h2 (mul_neg_of_pos_of_neg (by linarith) (by linarith))
        linarith
    · have a1 : u2 * (1 - u2) < u1 * (1 - u1) := by nlinarith
      have a2 : 0 < u2 * (1 - u2) := mul_pos (by linarith) (by linarith)
      have := mul_lt_mul' h21 a1 a2.le hF10
      linarith
  · push Not at b
    have a1 : F2 * (u2 * (1 - u2)) ≤ F1 * (6 / 25) := by
      rcases le_or_gt 1 u2 with h | h
      · have : F2 * (u2 * (1 - u2)) ≤ 0 := mul_nonpos_of_nonneg_of_nonpos h2.le (mul_nonpos_of_nonneg_of_nonpos (by linarith) (by linarith))
        nlinarith
      · exact mul_le_mul h21 (by nlinarith) (mul_nonneg (by linarith) (by linarith)) hF10.le
    have a2 : 0 < (3 / 5 - u1) * (20 / 3 - 4 * F1 - (50 / 9 - 4 * F1) * (u1 + 3 / 5)) := by
      refine mul_pos (by linarith) ?_
      have : (50 / 9 - 4 * F1) * (u1 + 3 / 5) < (50 / 9 - 4 * F1) * (6 / 5) := mul_lt_mul_of_pos_left (by linarith) (by linarith)
      linarith
    nlinarith
  · push Not at a
    linarith
  · push Not at a b
    have a1 : F2 * (u2 * (1 - u2)) ≤ F1 * (u2 * (1 - u2)) := mul_le_mul_of_nonneg_right h21 (mul_nonneg (by linarith) (by linarith))
    have a2 : 0 < (u2 - u1) * (20 / 3 - 4 * F1 - (50 / 9 - 4 * F1) * (u1 + u2)) := by
      refine mul_pos (by linarith) ?_
      have : (50 / 9 - 4 * F1) * (u1 + u2) < (50 / 9 - 4 * F1) * (6 / 5) := mul_lt_mul_of_pos_left (by linarith) (by linarith)
      linarith
    nlinarith

/-! ## Specification -/

/-- Airfoil in attached flow between two angles of attack: the lift coefficient rises, and drag, if the residual uses it, is constant. -/
structure RisingLift (o : BemOpts) (CL CD : ℝ → ℝ) (lo hi : ℝ) : Prop where
  lift : StrictMonoOn CL (Set.Ioc lo hi)
  drag : o.useCd = true → ∃ c, 0 ≤ c ∧ ∀ a ∈ Set.Ioc lo hi, CD a = c

/-! ## The section -/

section
variable {o : BemOpts} {B : ℕ} {r chord Rhub Rtip Vx Vy : ℝ} {p q : ℝ}

/-- More lift at the same inflow angle. -/
theorem sectionSide_lift (hB : 0 < B) (hRhub : 0 < Rhub) (h1 : Rhub < r) (h2 : r < Rtip) (hc : 0 < chord) (hVx : 0 < Vx) (hVy : 0 < Vy)
    {cl cd cl' cd' : ℝ → ℝ} (hp : 0 < p) (hp2 : p < π / 2) (hcl : cl p < cl' p) (hcd : usedDrag o cd p = usedDrag o cd' p) :
    sectionSide o B r chord Rhub Rtip Vx Vy cl cd p < sectionSide o B r chord Rhub Rtip Vx Vy cl' cd' p := by
  have hpi := pi_pos
  have hr : 0 < r := hRhub.trans h1
  have hB' : (0 : ℝ) < B := by exact_mod_cast hB
  have hF := (lossSpec_range o B hB r Rhub Rtip p hRhub h1 h2 hp (by linarith)).1
  have hs : 0 < sin p := sin_pos_of_pos_of_lt_pi hp (by linarith)
  have hcos : 0 < cos p := cos_pos_of_mem_Ioo ⟨by linarith, hp2⟩
  have ht : 0 < tan p := tan_pos_of_pos_of_lt_pi_div_two hp hp2
  have hsig : 0 < (B * chord / (2 * π * r) / 4 : ℝ) := by positivity
  unfold sectionSide
  refine add_lt_add_of_lt_of_le ?_ (mul_le_mul_of_nonneg_left ?_ (by positivity))
  · unfold sectionWake
    refine mul_lt_mul_of_pos_left (wakeOf_strict hF ?_) ht
    unfold forceK
    rw [hcd]
    gcongr
  · unfold sectionSwirl
    simp only
    rw [hcd]
    split_ifs
    · gcongr
    · exact le_rfl

variable {CL CD : ℝ → ℝ} {t t' : ℝ}

private theorem attached_of_rising (hB : 0 < B) (hRhub : 0 < Rhub) (h1 : Rhub < r) (h2 : r < Rtip) (hCL : RisingLift o CL CD (-t') (π / 2 - t))
    {x : ℝ} (h : t ≤ x) (h' : x ≤ t') : AttachedFlow o B r Rhub Rtip (fun f => CL (f - x)) (fun f => CD (f - x)) := by
  refine attachedFlow_of_constant_drag hB hRhub h1 h2 (fun a b c => ?_) fun hu => ?_
  · exact hCL.lift.monotoneOn ⟨by linarith, by linarith⟩ ⟨by linarith, by linarith⟩ (by linarith)
  · obtain ⟨c, hc, e⟩ := hCL.drag hu
    exact ⟨c, hc, fun y h0 h1 => e _ ⟨by linarith, by linarith⟩⟩

private theorem usedDrag_rising (hCL : RisingLift o CL CD (-t') (π / 2 - t)) {x y f g : ℝ} (hx : t ≤ x) (hx' : x ≤ t') (hy : t ≤ y) (hy' : y ≤ t')
    (hf : 0 < f) (hf' : f < π / 2) (hg : 0 < g) (hg' : g < π / 2) :
    usedDrag o (fun f => CD (f - x)) f = usedDrag o (fun f => CD (f - y)) g := by
  unfold usedDrag
  split_ifs with hu
  · obtain ⟨c, hc, e⟩ := hCL.drag hu
    exact (e (f - x) ⟨by linarith, by linarith⟩).trans (e (g - y) ⟨by linarith, by linarith⟩).symm
  · rfl

theorem sectionSide_root {cl cd : ℝ → ℝ} (hB : 0 < B) (hRhub : 0 < Rhub) (h1 : Rhub < r) (h2 : r < Rtip) (hVy : 0 < Vy) (hp : 0 < p) (hp2 : p < π / 2)
    (hreg : RegularK (lossSpec o B r Rhub Rtip p) (kSpec o B r chord Rhub Rtip p (cl p) (cd p)))
    (hroot : (inductionFactors r chord Rhub Rtip p (cl p) (cd p) B Vx Vy o).fzero = 0) :
    sectionSide o B r chord Rhub Rtip Vx Vy cl cd p = Vx / Vy := by
  have := section_root hB hRhub h1 h2 hVy hp hp2 hreg hroot
  unfold sectionSide
  rw [this]
  ring

/-- With more pitch the residual is negative up to the solution for less pitch. -/
theorem pitch_below (hB : 0 < B) (hRhub : 0 < Rhub) (h1 : Rhub < r) (h2 : r < Rtip) (hc : 0 < chord) (hVx : 0 < Vx) (hVy : 0 < Vy)
    (htt : t < t') (hCL : RisingLift o CL CD (-t') (π / 2 - t)) (hp : p ∈ Set.Ioo 0 (π / 2))
    (hroot : (inductionFactors r chord Rhub Rtip p (CL (p - t)) (CD (p - t)) B Vx Vy o).fzero = 0)
    (hreg : RegularK (lossSpec o B r Rhub Rtip p) (kSpec o B r chord Rhub Rtip p (CL (p - t)) (CD (p - t)))) (hcl : 0 ≤ CL (p - t))
    (hq : 0 < q) (hqp : q ≤ p)
    (hreg' : RegularK (lossSpec o B r Rhub Rtip q) (kSpec o B r chord Rhub Rtip q (CL (q - t')) (CD (q - t')))) :
    (inductionFactors r chord Rhub Rtip q (CL (q - t')) (CD (q - t')) B Vx Vy o).fzero < 0 := by
  have hq2 := hqp.trans_lt hp.2
  have hatt := attached_of_rising (B := B) (r := r) (Rhub := Rhub) (Rtip := Rtip) hB hRhub h1 h2 hCL le_rfl htt.le
  have e := sectionSide_root (cl := fun f => CL (f - t)) (cd := fun f => CD (f - t)) hB hRhub h1 h2 hVy hp.1 hp.2 hreg hroot
  have hcq : 0 < cos q := cos_pos_of_mem_Ioo ⟨by linarith [pi_pos], hq2⟩
  have h3 : sectionSide o B r chord Rhub Rtip Vx Vy (fun f => CL (f - t)) (fun f => CD (f - t)) q
      ≤ sectionSide o B r chord Rhub Rtip Vx Vy (fun f => CL (f - t)) (fun f => CD (f - t)) p := by
    rcases hqp.eq_or_lt with rfl | h
    · exact le_rfl
    · exact (sectionSide_lt hB hRhub h1 h2 hc hVx hVy hatt hq h hp.2 hcl).le
  have h4 := sectionSide_lift (o := o) (B := B) (chord := chord) (cl := fun f => CL (f - t')) (cl' := fun f => CL (f - t)) (cd := fun f => CD (f - t'))
    (cd' := fun f => CD (f - t)) hB hRhub h1 h2 hc hVx hVy hq hq2
    (hCL.lift ⟨by linarith, by linarith⟩ ⟨by linarith, by linarith⟩ (by linarith))
    (usedDrag_rising hCL htt.le le_rfl le_rfl htt.le hq hq2 hq hq2)
  have h5 := residual_side (Vx := Vx) (cl := fun f => CL (f - t')) (cd := fun f => CD (f - t')) hB hRhub h1 h2 hVy hq hq2 hreg'
  refine h5.trans_lt (mul_neg_of_pos_of_neg hcq ?_)
  linarith

/-- **C114** Pitching (or twisting) a section in attached flow towards feather raises the inflow angle, but by less than the pitch:
the angle of attack falls. -/
theorem pitch_angles (hB : 0 < B) (hRhub : 0 < Rhub) (h1 : Rhub < r) (h2 : r < Rtip) (hc : 0 < chord) (hVx : 0 < Vx) (hVy : 0 < Vy)
    (htt : t < t') (hCL : RisingLift o CL CD (-t') (π / 2 - t)) (hp : p ∈ Set.Ioo 0 (π / 2))
    (hroot : (inductionFactors r chord Rhub Rtip p (CL (p - t)) (CD (p - t)) B Vx Vy o).fzero = 0)
    (hreg : RegularK (lossSpec o B r Rhub Rtip p) (kSpec o B r chord Rhub Rtip p (CL (p - t)) (CD (p - t)))) (hcl : 0 ≤ CL (p - t))
    (hq : q ∈ Set.Ioo 0 (π / 2))
    (hroot' : (inductionFactors r chord Rhub Rtip q (CL (q - t')) (CD (q - t')) B Vx Vy o).fzero = 0)
    (hreg' : RegularK (lossSpec o B r Rhub Rtip q) (kSpec o B r chord Rhub Rtip q (CL (q - t')) (CD (q - t')))) :
    p < q ∧ q - t' < p - t := by
  constructor
  · by_contra h
    push Not at h
    linarith [pitch_below hB hRhub h1 h2 hc hVx hVy htt hCL hp hroot hreg hcl hq.1 h hreg']
  · by_contra h
    push Not at h
    have hpq : p < q := by linarith
    have hll : CL (p - t) ≤ CL (q - t') :=
      hCL.lift.monotoneOn ⟨by linarith [hp.1], by linarith [hp.2]⟩ ⟨by linarith [hq.1], by linarith [hq.2]⟩ h
    have e := sectionSide_root (cl := fun f => CL (f - t)) (cd := fun f => CD (f - t)) hB hRhub h1 h2 hVy hp.1 hp.2 hreg hroot
    have e' := sectionSide_root (cl := fun f => CL (f - t')) (cd := fun f => CD (f - t')) hB hRhub h1 h2 hVy hq.1 hq.2 hreg' hroot'
    -- a polar through both
    set cl := fun f => if f < q then CL (p - t) else CL (q - t') with hcldef
    set cd := fun f => if f < q then CD (p - t) else CD (q - t') with hcddef
    have hatt : AttachedFlow o B r Rhub Rtip cl cd := by
      refine attachedFlow_of_constant_drag hB hRhub h1 h2 (fun {a b} _ hab _ => ?_) fun hu => ?_
      · simp only [hcldef]
        split_ifs with c1 c2 c2
        · exact le_rfl
        · exact hll
        · exact absurd (hab.trans_lt c2) c1
        · exact le_rfl
      · obtain ⟨c, hc, e⟩ := hCL.drag hu
        refine ⟨c, hc, fun y _ _ => ?_⟩
        simp only [hcddef]
        rw [e _ ⟨by linarith [hp.1], by linarith [hp.2]⟩, e _ ⟨by linarith [hq.1], by linarith [hq.2]⟩, ite_self]
    have key := sectionSide_lt (cl := cl) (cd := cd) hB hRhub h1 h2 hc hVx hVy hatt hp.1 hpq hq.2
      (by simp only [hcldef, lt_irrefl, if_false]; exact hcl.trans hll)
    have a1 : sectionSide o B r chord Rhub Rtip Vx Vy cl cd p
        = sectionSide o B r chord Rhub Rtip Vx Vy (fun f => CL (f - t)) (fun f => CD (f - t)) p := by
      simp only [sectionSide, sectionWake, sectionSwirl, usedDrag, hcldef, hcddef, if_pos hpq]
    have a2 : sectionSide o B r chord Rhub Rtip Vx Vy cl cd q
        = sectionSide o B r chord Rhub Rtip Vx Vy (fun f => CL (f - t')) (fun f => CD (f - t')) q := by
      simp only [sectionSide, sectionWake, sectionSwirl, usedDrag, hcldef, hcddef, lt_irrefl, if_false]
    rw [a1, a2, e, e'] at key
    exact lt_irrefl _ key

/-- Without wake rotation the force of the blades at a solution is the thrust of the annulus at `1-a = tan φ Vy/Vx`. -/
theorem section_thrust {cl cd : ℝ → ℝ} (hB : 0 < B) (hRhub : 0 < Rhub) (h1 : Rhub < r) (h2 : r < Rtip) (hVx : 0 < Vx) (hVy : 0 < Vy)
    (ho : o.useCd = true) (hw : o.wakeRot = false) (hp : p ∈ Set.Ioo 0 (π / 2))
    (hroot : (inductionFactors r chord Rhub Rtip p (cl p) (cd p) B Vx Vy o).fzero = 0)
    (hreg : RegularK (lossSpec o B r Rhub Rtip p) (kSpec o B r chord Rhub Rtip p (cl p) (cd p))) :
    let I := inductionFactors r chord Rhub Rtip p (cl p) (cd p) B Vx Vy o
    B * chord * (relSpeed p I.a I.ap Vx Vy ^ 2 * (cl p * cos p + cd p * sin p))
      = Vx ^ 2 * (2 * π * r) * thrustOf (lossSpec o B r Rhub Rtip p) (tan p * (Vy / Vx)) := by
  intro I
  have hr : 0 < r := hRhub.trans h1
  have hpi := pi_pos
  have hs : 0 < sin p := sin_pos_of_pos_of_lt_pi hp.1 (by linarith [hp.2])
  have ht : 0 < tan p := tan_pos_of_pos_of_lt_pi_div_two hp.1 hp.2
  have hF := (lossSpec_range o B hB r Rhub Rtip p hRhub h1 h2 hp.1 (by linarith [hp.2])).1
  have e := section_root hB hRhub h1 h2 hVy hp.1 hp.2 hreg hroot
  have hS : sectionSwirl o B r chord Rhub Rtip cl cd p = 0 := by simp [sectionSwirl, hw]
  rw [hS, sub_zero, mul_one] at e
  unfold sectionWake at e
  simp only at e
  rw [← kSpec_forceK hB hRhub h1 h2 hp.1 hp.2] at e
  have hk := inv_axial_wake hp.1 hF hreg.1 hreg.2
  rw [← (indOut_eq r chord Rhub Rtip p (cl p) (cd p) B Vx Vy o).1] at hk
  change 1 / (1 - I.a) = _ at hk
  set k := kSpec o B r chord Rhub Rtip p (cl p) (cd p) with hkdef
  set F := lossSpec o B r Rhub Rtip p with hFdef
  have hwk : 0 < wakeOf F k := by
    have : 0 < tan p * wakeOf F k := by rw [e]; positivity
    exact (mul_pos_iff_of_pos_left ht).mp this
  have hu : 1 / wakeOf F k = tan p * (Vy / Vx) := by
    rw [div_eq_iff hwk.ne']
    have : tan p * (Vy / Vx) * wakeOf F k = (tan p * wakeOf F k) * (Vy / Vx) := by ring
    rw [this, e]
    field_simp
  have ha : 1 - I.a = tan p * (Vy / Vx) := by rw [← hu, ← hk, one_div_one_div]
  have ha1 : I.a ≠ 1 := by
    intro h
    rw [h, sub_self] at ha
    have : 0 < tan p * (Vy / Vx) := by positivity
    linarith
  obtain ⟨hc0, -, htri, -⟩ := root_triangle r chord Rhub Rtip p (cl p) (cd p) B Vx Vy o hVx.ne' hVy.ne' hp.1 (by linarith [hp.2]) ha1 hroot
  have w1 := (relSpeed_sq p I.a I.ap Vx Vy hs.ne' hc0 htri).1
  have e5 : 4 * F * k * sin p ^ 2 * (2 * π * r) = B * chord * (cl p * cos p + cd p * sin p) := by
    rw [hkdef]
    unfold kSpec cnSpec
    rw [ho, if_pos rfl, ← hFdef]
    field_simp
  rw [← hu, ← thrustOf_wake hF hwk, hu, ← ha]
  linear_combination (-(relSpeed p I.a I.ap Vx Vy ^ 2)) * e5 + (4 * F * k * (2 * π * r)) * w1

/-- The flow through the disc is not faster than the wind if the blades push it. -/
theorem section_slowed {cl cd : ℝ → ℝ} (hB : 0 < B) (hRhub : 0 < Rhub) (h1 : Rhub < r) (h2 : r < Rtip) (hc : 0 < chord) (hVx : 0 < Vx) (hVy : 0 < Vy)
    (hw : o.wakeRot = false) (hp : p ∈ Set.Ioo 0 (π / 2))
    (hroot : (inductionFactors r chord Rhub Rtip p (cl p) (cd p) B Vx Vy o).fzero = 0)
    (hreg : RegularK (lossSpec o B r Rhub Rtip p) (kSpec o B r chord Rhub Rtip p (cl p) (cd p))) (hcl : 0 ≤ cl p) (hcd : 0 ≤ usedDrag o cd p) :
    tan p * (Vy / Vx) ≤ 1 := by
  have hr : 0 < r := hRhub.trans h1
  have hpi := pi_pos
  have hs : 0 < sin p := sin_pos_of_pos_of_lt_pi hp.1 (by linarith [hp.2])
  have hcp : 0 < cos p := cos_pos_of_mem_Ioo ⟨by linarith [hp.1], hp.2⟩
  have ht : 0 < tan p := tan_pos_of_pos_of_lt_pi_div_two hp.1 hp.2
  have hF := (lossSpec_range o B hB r Rhub Rtip p hRhub h1 h2 hp.1 (by linarith [hp.2])).1
  have e := section_root hB hRhub h1 h2 hVy hp.1 hp.2 hreg hroot
  have hS : sectionSwirl o B r chord Rhub Rtip cl cd p = 0 := by simp [sectionSwirl, hw]
  rw [hS, sub_zero, mul_one] at e
  unfold sectionWake at e
  simp only at e
  have hk : 0 ≤ forceK (lossSpec o B r Rhub Rtip p) (B * chord / (2 * π * r) / 4 * (cl p + usedDrag o cd p * tan p)) p := by
    unfold forceK
    positivity
  have hw1 := wakeOf_mono hF hk
  rw [show wakeOf (lossSpec o B r Rhub Rtip p) 0 = 1 by norm_num [wakeOf]] at hw1
  have h3 : tan p ≤ Vx / Vy := by rw [← e]; nlinarith
  have h4 : tan p * (Vy / Vx) ≤ Vx / Vy * (Vy / Vx) := mul_le_mul_of_nonneg_right h3 (by positivity)
  rwa [div_mul_div_cancel₀ hVy.ne', div_self hVx.ne'] at h4

end

/-! ## The station -/

/-- The airfoil of station `i`, at a Reynolds number, in attached flow at every angle of attack between two pitch settings. -/
def RisingStation (R : Rotor ℝ) (Re : ℝ) (i : ℕ) (pitch pitch' : ℝ) : Prop :=
  RisingLift R.opts (fun a => ((R.af i).evaluate a Re).1) (fun a => ((R.af i).evaluate a Re).2) (-(R.theta i + pitch' * (π / 180)))
    (π / 2 - (R.theta i + pitch * (π / 180)))

section
variable {R : Rotor ℝ} {Uinf Omega pitch pitch' az : ℝ} {i : ℕ}

/-- Two pitch settings at which the station is solved between 0 and 90 degrees, at the smaller one without negative lift. -/
theorem station_feathers_core (bq : RootFinder ℝ) (hbq : ExactRoots bq) (hinv : R.inv = none) (hre : FixedRe R i) (hO : Omega ≠ 0)
    (hrho : 0 < R.rho) (hB : 0 < R.B) (hRhub : 0 < R.Rhub) (h1 : R.Rhub < R.r i) (h2 : R.r i < R.Rtip) (hc : 0 < R.chord i)
    (hfront : 0 < (rotorWind R Uinf Omega (az * (π / 180)) i).1) (hsense : 0 < (rotorWind R Uinf Omega (az * (π / 180)) i).2)
    (hpitch : pitch < pitch') (hrise : RisingStation R (stationRe R Uinf Omega az i) i pitch pitch') (R1 R2 : Rotor ℝ) (L L' : LoadsOut ℝ)
    (h : distributedAeroLoads bq R Uinf Omega pitch az = (R1, .ok L)) (h' : distributedAeroLoads bq R Uinf Omega pitch' az = (R2, .ok L'))
    (s s' : Station ℝ) (hs : L.stations[i]? = some s) (hs' : L'.stations[i]? = some s') (hw : s.warned = false) (hw' : s'.warned = false)
    (hphi : s.phi ∈ Set.Ioo 0 (π / 2)) (hcl : 0 ≤ s.loads.cl) (hreg : RegularAngle R Uinf Omega pitch az i s.phi)
    (hphi' : s'.phi ∈ Set.Ioo 0 (π / 2)) (r2 : RegularAngle R Uinf Omega pitch' az i s'.phi) :
    s.phi < s'.phi ∧ s'.loads.alpha < s.loads.alpha ∧ (R.opts.useCd = true → R.opts.wakeRot = false → s'.loads.Np < s.loads.Np) := by
  have hpi := pi_gt_three
  obtain ⟨Vx, Vy, hV⟩ : ∃ Vx Vy, rotorWind R Uinf Omega (az * (π / 180)) i = (Vx, Vy) := ⟨_, _, rfl⟩
  rw [hV] at hfront hsense
  simp only at hfront hsense
  have hri : 0 < R.r i := hRhub.trans h1
  have hBr : (0 : ℝ) < R.B := by exact_mod_cast hB
  have htt : R.theta i + pitch * (π / 180) < R.theta i + pitch' * (π / 180) := by
    have := mul_lt_mul_of_pos_right hpitch (show (0 : ℝ) < π / 180 by positivity)
    linarith
  set CL := fun a => ((R.af i).evaluate a (stationRe R Uinf Omega az i)).1 with hCLdef
  set CD := fun a => ((R.af i).evaluate a (stationRe R Uinf Omega az i)).2 with hCDdef
  obtain ⟨f1, f2, f3, f4⟩ := station_facts hinv hre h hO hs hV hfront.ne' hsense.ne'
  obtain ⟨g1, g2, g3, g4⟩ := station_facts hinv hre h' hO hs' hV hfront.ne' hsense.ne'
  have e := stationResidual_const (Uinf := Uinf) (Omega := Omega) (pitch := pitch) (az := az) hinv hre
  have e' := stationResidual_const (Uinf := Uinf) (Omega := Omega) (pitch := pitch') (az := az) hinv hre
  rw [hV] at e e'
  generalize ht : R.theta i + pitch * (π / 180) = t at *
  generalize ht' : R.theta i + pitch' * (π / 180) = t' at *
  have hCL : RisingLift R.opts CL CD (-t') (π / 2 - t) := by
    have := hrise
    unfold RisingStation at this
    rwa [ht, ht'] at this
  have c1 : ∀ p, (stationPolar R Uinf Omega pitch az i p).1 = CL (p - t) := fun p => by rw [← ht]; rfl
  have c2 : ∀ p, (stationPolar R Uinf Omega pitch az i p).2 = CD (p - t) := fun p => by rw [← ht]; rfl
  have d1 : ∀ p, (stationPolar R Uinf Omega pitch' az i p).1 = CL (p - t') := fun p => by rw [← ht']; rfl
  have d2 : ∀ p, (stationPolar R Uinf Omega pitch' az i p).2 = CD (p - t') := fun p => by rw [← ht']; rfl
  unfold RegularAngle at hreg r2
  simp only [c1, c2, d1, d2] at e e' f1 f2 f3 g1 g2 g3 hreg r2
  obtain ⟨z, -, -⟩ := exact_interval hbq h hO hs hw
  obtain ⟨z', -, -⟩ := exact_interval hbq h' hO hs' hw'
  rw [e] at z
  rw [e'] at z'
  rw [f1] at hcl
  obtain ⟨hpos, hq⟩ := hphi'
  obtain ⟨hlt, hal⟩ := pitch_angles hB hRhub h1 h2 hc hfront hsense htt hCL hphi z hreg hcl ⟨hpos, hq⟩ z' r2
  refine ⟨hlt, ?_, fun hu hwr => ?_⟩
  · have : s'.loads.alpha * (π / 180) < s.loads.alpha * (π / 180) := by rw [f4, g4]; exact hal
    exact lt_of_mul_lt_mul_right this (by positivity)
  · have t1 := section_thrust (cl := fun f => CL (f - t)) (cd := fun f => CD (f - t)) hB hRhub h1 h2 hfront hsense hu hwr hphi z hreg
    have t2 := section_thrust (cl := fun f => CL (f - t')) (cd := fun f => CD (f - t')) hB hRhub h1 h2 hfront hsense hu hwr ⟨hpos, hq⟩ z' r2
    have hslow := section_slowed (cl := fun f => CL (f - t)) (cd := fun f => CD (f - t)) hB hRhub h1 h2 hc hfront hsense hwr hphi z hreg hcl (by
      unfold usedDrag
      rw [if_pos hu]
      obtain ⟨c, hc, ec⟩ := hCL.drag hu
      exact hc.trans_eq (ec (s.phi - t) ⟨by linarith [hphi.1], by linarith [hphi.2]⟩).symm)
    have htan : tan s.phi < tan s'.phi := tan_lt_tan_of_nonneg_of_lt_pi_div_two hphi.1.le hq hlt
    have htan0 : 0 < tan s.phi := tan_pos_of_pos_of_lt_pi_div_two hphi.1 hphi.2
    have key := thrustOf_lt (lossSpec_range R.opts R.B hB (R.r i) R.Rhub R.Rtip s'.phi hRhub h1 h2 hpos (by linarith)).1
      (lossSpec_anti (o := R.opts) hB hRhub h1 h2 hphi.1 hlt.le hq.le)
      (lossSpec_range R.opts R.B hB (R.r i) R.Rhub R.Rtip s.phi hRhub h1 h2 hphi.1 (by linarith [hphi.2])).2
      (u1 := tan s.phi * (Vy / Vx)) (u2 := tan s'.phi * (Vy / Vx)) (by positivity) (mul_lt_mul_of_pos_right htan (by positivity)) hslow
    have hcmp := mul_lt_mul_of_pos_left key (show 0 < Vx ^ 2 * (2 * π * R.r i) by positivity)
    rw [← t1, ← t2] at hcmp
    rw [← f3, ← g3] at hcmp
    obtain ⟨a1, a2, -⟩ := distributedAeroLoads_forces bq R R1 _ _ _ _ L h i s hs
    obtain ⟨b1, b2, -⟩ := distributedAeroLoads_forces bq R R2 _ _ _ _ L' h' i s' hs'
    rw [a2, b2, a1, b1, f1, f2, g1, g2]
    have h3 := lt_of_mul_lt_mul_left hcmp (by positivity)
    have h4 := mul_lt_mul_of_pos_left h3 (show 0 < R.rho / 2 * R.chord i by positivity)
    refine lt_of_eq_of_lt ?_ (lt_of_lt_of_eq h4 ?_) <;> ring

/-- **C114** A station in attached flow at two pitch settings, one pass over the Reynolds number or an airfoil that ignores it: at the larger one the inflow
angle is larger (and still below 90°) and the angle of attack is smaller. If the residual uses drag and wake rotation is off, the
normal force is smaller too. -/
theorem station_feathers (bq : RootFinder ℝ) (hbq : ExactRoots bq) (hinv : R.inv = none) (hre : FixedRe R i) (hO : Omega ≠ 0)
    (hrho : 0 < R.rho) (hB : 0 < R.B) (hRhub : 0 < R.Rhub) (h1 : R.Rhub < R.r i) (h2 : R.r i < R.Rtip) (hc : 0 < R.chord i)
    (hfront : 0 < (rotorWind R Uinf Omega (az * (π / 180)) i).1) (hsense : 0 < (rotorWind R Uinf Omega (az * (π / 180)) i).2)
    (hpitch : pitch < pitch') (hrise : RisingStation R (stationRe R Uinf Omega az i) i pitch pitch') (R1 R2 : Rotor ℝ) (L L' : LoadsOut ℝ)
    (h : distributedAeroLoads bq R Uinf Omega pitch az = (R1, .ok L)) (h' : distributedAeroLoads bq R Uinf Omega pitch' az = (R2, .ok L'))
    (s s' : Station ℝ) (hs : L.stations[i]? = some s) (hs' : L'.stations[i]? = some s') (hw : s.warned = false) (hw' : s'.warned = false)
    (hphi : s.phi ∈ Set.Ioo 0 (π / 2)) (hcl : 0 ≤ s.loads.cl) (hreg : RegularAngle R Uinf Omega pitch az i s.phi)
    (hreg' : ∀ p, p = 1 / 1000000 ∨ p = π / 2 ∨ p = s'.phi → RegularAngle R Uinf Omega pitch' az i p) :
    s.phi < s'.phi ∧ s'.phi < π / 2 ∧ s'.loads.alpha < s.loads.alpha ∧
      (R.opts.useCd = true → R.opts.wakeRot = false → s'.loads.Np < s.loads.Np) := by
  have hpi := pi_gt_three
  have core := fun hphi' => station_feathers_core bq hbq hinv hre hO hrho hB hRhub h1 h2 hc hfront hsense hpitch hrise R1 R2 L L' h h' s s' hs hs' hw hw' hphi hcl hreg
    hphi' (hreg' s'.phi (.inr (.inr rfl)))
  obtain ⟨Vx, Vy, hV⟩ : ∃ Vx Vy, rotorWind R Uinf Omega (az * (π / 180)) i = (Vx, Vy) := ⟨_, _, rfl⟩
  rw [hV] at hfront hsense
  simp only at hfront hsense
  have hri : 0 < R.r i := hRhub.trans h1
  have hBr : (0 : ℝ) < R.B := by exact_mod_cast hB
  have htt : R.theta i + pitch * (π / 180) < R.theta i + pitch' * (π / 180) := by
    have := mul_lt_mul_of_pos_right hpitch (show (0 : ℝ) < π / 180 by positivity)
    linarith
  set CL := fun a => ((R.af i).evaluate a (stationRe R Uinf Omega az i)).1 with hCLdef
  set CD := fun a => ((R.af i).evaluate a (stationRe R Uinf Omega az i)).2 with hCDdef
  obtain ⟨f1, f2, f3, f4⟩ := station_facts hinv hre h hO hs hV hfront.ne' hsense.ne'
  obtain ⟨g1, g2, g3, g4⟩ := station_facts hinv hre h' hO hs' hV hfront.ne' hsense.ne'
  have e := stationResidual_const (Uinf := Uinf) (Omega := Omega) (pitch := pitch) (az := az) hinv hre
  have e' := stationResidual_const (Uinf := Uinf) (Omega := Omega) (pitch := pitch') (az := az) hinv hre
  rw [hV] at e e'
  generalize ht : R.theta i + pitch * (π / 180) = t at *
  generalize ht' : R.theta i + pitch' * (π / 180) = t' at *
  have hCL : RisingLift R.opts CL CD (-t') (π / 2 - t) := by
    have := hrise
    unfold RisingStation at this
    rwa [ht, ht'] at this
  have c1 : ∀ p, (stationPolar R Uinf Omega pitch az i p).1 = CL (p - t) := fun p => by rw [← ht]; rfl
  have c2 : ∀ p, (stationPolar R Uinf Omega pitch az i p).2 = CD (p - t) := fun p => by rw [← ht]; rfl
  have d1 : ∀ p, (stationPolar R Uinf Omega pitch' az i p).1 = CL (p - t') := fun p => by rw [← ht']; rfl
  have d2 : ∀ p, (stationPolar R Uinf Omega pitch' az i p).2 = CD (p - t') := fun p => by rw [← ht']; rfl
  unfold RegularAngle at hreg hreg'
  simp only [c1, c2, d1, d2] at e e' f1 f2 f3 g1 g2 g3 hreg hreg'
  obtain ⟨z, l, u⟩ := exact_interval hbq h hO hs hw
  obtain ⟨z', l', u'⟩ := exact_interval hbq h' hO hs' hw'
  rw [e] at z
  rw [e'] at z'
  rw [f1] at hcl
  have r0 := hreg' _ (.inl rfl)
  have r1 := hreg' _ (.inr (.inl rfl))
  have r2 := hreg' _ (.inr (.inr rfl))
  have hatt := attached_of_rising (B := R.B) (r := R.r i) (Rhub := R.Rhub) (Rtip := R.Rtip) hB hRhub h1 h2 hCL htt.le le_rfl
  have hend := residual_end (Vx := Vx) (Vy := Vy) hB hRhub h1 h2 hc hatt r1
  -- the interval of the first search
  have hlo : 1 / 1000000 ≤ s.phi := by
    have hb := bracket_searchInterval (stationResidual R Uinf Omega pitch az i)
    simp only [SearchInterval, num_real] at hb
    push_cast at hb
    obtain ⟨p0, p1⟩ := hphi
    rcases hb with hb | hb | hb <;> rw [hb] at l u <;> simp only at l u
    · exact l
    · linarith
    · linarith
  -- the interval of the second
  have hb' : bracket (stationResidual R Uinf Omega pitch' az i) = (1 / 1000000, π / 2) := by
    refine (bracket_choice _).1 (mul_neg_of_neg_of_pos ?_ ?_).le
    · rw [e']
      exact pitch_below hB hRhub h1 h2 hc hfront hsense htt hCL hphi z hreg hcl (by norm_num) hlo r0
    · rw [e']
      exact hend
  rw [hb'] at l' u'
  simp only at l' u'
  have hpos : 0 < s'.phi := lt_of_lt_of_le (by norm_num) l'
  have hq : s'.phi < π / 2 := by
    refine lt_of_le_of_ne u' fun heq => ?_
    rw [heq] at z'
    linarith
  obtain ⟨hlt, hal, hn⟩ := core ⟨hpos, hq⟩
  exact ⟨hlt, hq, hal, hn⟩

end

/-! ## The rotor -/

theorem StraightRotor.stationRe {R : Rotor ℝ} (G : StraightRotor R) (Uinf Omega az : ℝ) {i : ℕ} (hi : i < R.n) :
    stationRe R Uinf Omega az i = Verif.stationRe R Uinf Omega 0 i := by
  simp only [Verif.stationRe, G.wind _ _ _ hi]

theorem StraightRotor.regular {R : Rotor ℝ} (G : StraightRotor R) (Uinf Omega pitch az : ℝ) {i : ℕ} (hi : i < R.n) (p : ℝ) :
    RegularAngle R Uinf Omega pitch az i p ↔ RegularAngle R Uinf Omega pitch 0 i p := by
  simp only [RegularAngle, stationPolar, G.stationRe Uinf Omega az hi]

/-- **C114** Two conditions of one call of `evaluate` that differ in the pitch only, a straight rotor in axial wind whose residual uses
drag but no wake rotation, attached flow at every station (solved, and without negative lift at the smaller pitch): thrust and blade
root moment are smaller at the larger pitch. -/
theorem evaluate_feathers (bq : RootFinder ℝ) (hbq : ExactRoots bq) (R : Rotor ℝ) (cs : List (Cond ℝ)) (o : EvalOut ℝ) (co : Bool)
    (h : (evaluate bq R cs co).2 = .ok o) (m m' : ℕ) (c c' : Cond ℝ) (x x' : CondOut ℝ) (hc : cs[m]? = some c) (hx : o.conds[m]? = some x)
    (hc' : cs[m']? = some c') (hx' : o.conds[m']? = some x') (G : StraightRotor R) (hinv : R.inv = none)
    (hre : ∀ i < R.n, FixedRe R i) (hB : 0 < R.B) (hns : 0 < R.nSector) (hrho : 0 < R.rho) (hchord : ∀ i < R.n, 0 < R.chord i)
    (hcd : R.opts.useCd = true) (hwr : R.opts.wakeRot = false)
    (hU : 0 < c.Uinf) (hUU : c'.Uinf = c.Uinf) (hO : 0 < c.Omega) (hOO : c'.Omega = c.Omega) (hpp : c.pitch < c'.pitch)
    (hrise : ∀ i < R.n, RisingStation R (stationRe R c.Uinf c.Omega 0 i) i c.pitch c'.pitch)
    (hend : ∀ i < R.n, RegularAngle R c.Uinf c.Omega c'.pitch 0 i (1 / 1000000) ∧ RegularAngle R c.Uinf c.Omega c'.pitch 0 i (π / 2))
    (hlow : ∀ k < R.nSector, ∀ L, (distributedAeroLoads bq R c.Uinf c.Omega c.pitch (k * (360 / R.nSector))).2 = .ok L →
      ∀ i s, L.stations[i]? = some s → s.warned = false ∧ s.phi ∈ Set.Ioo 0 (π / 2) ∧ 0 ≤ s.loads.cl ∧ RegularAngle R c.Uinf c.Omega c.pitch 0 i s.phi)
    (hhigh : ∀ k < R.nSector, ∀ L, (distributedAeroLoads bq R c'.Uinf c'.Omega c'.pitch (k * (360 / R.nSector))).2 = .ok L →
      ∀ i s, L.stations[i]? = some s → s.warned = false ∧ RegularAngle R c.Uinf c.Omega c'.pitch 0 i s.phi) :
    x'.acc.T.val < x.acc.T.val ∧ x'.acc.Mb.val < x.acc.Mb.val := by
  obtain ⟨L, hL, hT, -, hM, -⟩ := sector_averages h hc hx
  obtain ⟨L', hL', hT', -, hM', -⟩ := sector_averages h hc' hx'
  rw [hOO, hUU] at hL' hhigh
  have hcos := G.cos_pos
  have hpi := pi_pos
  have hBr : (0 : ℝ) < R.B := by exact_mod_cast hB
  have key : ∀ k < R.nSector, ∀ i < R.n, stationArr (L' k).stations SecLoads.Np i < stationArr (L k).stations SecLoads.Np i := by
    intro k hk i hi
    obtain ⟨R1, e1⟩ : ∃ R', distributedAeroLoads bq R c.Uinf c.Omega c.pitch (k * (360 / R.nSector)) = (R', .ok (L k)) :=
      ⟨_, Prod.ext rfl (hL k hk)⟩
    obtain ⟨R2, e2⟩ : ∃ R', distributedAeroLoads bq R c.Uinf c.Omega c'.pitch (k * (360 / R.nSector)) = (R', .ok (L' k)) :=
      ⟨_, Prod.ext rfl (hL' k hk)⟩
    obtain ⟨s, hs⟩ : ∃ s, (L k).stations[i]? = some s :=
      ⟨_, List.getElem?_eq_getElem (by rw [(solveStations_ok (distributedAeroLoads_stations e1)).1]; exact hi)⟩
    obtain ⟨s', hs'⟩ : ∃ s, (L' k).stations[i]? = some s :=
      ⟨_, List.getElem?_eq_getElem (by rw [(solveStations_ok (distributedAeroLoads_stations e2)).1]; exact hi)⟩
    obtain ⟨w, hphi, hcl, r2⟩ := hlow k hk _ (hL k hk) i s hs
    obtain ⟨w', r3⟩ := hhigh k hk _ (hL' k hk) i s' hs'
    obtain ⟨r0, r1⟩ := hend i hi
    have hV := G.wind c.Uinf c.Omega (k * (360 / R.nSector) * (π / 180)) hi
    have hr := G.range hi
    have hri : 0 < R.r i := G.hub.trans hr.1
    obtain ⟨-, -, -, n⟩ := station_feathers bq hbq hinv (hre i hi) hO.ne' hrho hB G.hub hr.1 hr.2 (hchord i hi) (by rw [hV]; positivity)
      (by rw [hV]; positivity) hpp (by rw [G.stationRe _ _ _ hi]; exact hrise i hi) R1 R2 _ _ e1 e2 s s' hs hs' w w'
      hphi hcl (by rw [G.regular _ _ _ _ hi]; exact r2) (fun p hp => by rw [G.regular _ _ _ _ hi]; rcases hp with rfl | rfl | rfl <;> assumption)
    have n' := n hcd hwr
    simpa [stationArr, hs, hs'] using n'
  constructor
  · rw [hT, hT']
    refine mul_lt_mul_of_pos_left (mean_lt hns fun k hk => ?_) hBr
    simp only
    rw [(G.blade_integrals (L k)).1, (G.blade_integrals (L' k)).1]
    exact G.integral_lt fun i hi => mul_lt_mul_of_pos_right (key k hk i hi) hcos
  · rw [hM, hM']
    refine mean_lt hns fun k hk => ?_
    simp only
    rw [(G.blade_integrals (L k)).2.2, (G.blade_integrals (L' k)).2.2]
    exact G.integral_lt fun i hi => mul_lt_mul_of_pos_right (key k hk i hi) (mul_pos (G.hub.trans (G.range hi).1) hcos)

/-! ## An example -/

/-- Two stations whose lift coefficient is one more than the sine of the angle of attack. -/
noncomputable def featherRotor : Rotor ℝ := annulusRotor (fun i => 6 + i) (fun i => π * (6 + i) / 12) (fun alpha => 1 + sin alpha) 1 10

theorem featherRotor_straight : StraightRotor featherRotor :=
  annulusRotor_straight (by norm_num) (by norm_num) (by norm_num) (by norm_num)

theorem featherRotor_polar (U Omega pitch az : ℝ) (i : ℕ) (p : ℝ) : stationPolar featherRotor U Omega pitch az i p = (1 + sin (p - pitch * (π / 180)), 0) := by
  simp [stationPolar, featherRotor, annulusRotor]

private theorem feather_loss (i : ℕ) (p : ℝ) :
    lossSpec featherRotor.opts featherRotor.B (featherRotor.r i) featherRotor.Rhub featherRotor.Rtip p = 1 := by
  simp [lossSpec, featherRotor, annulusRotor]

private theorem feather_k (i : ℕ) (p cl : ℝ) :
    kSpec featherRotor.opts featherRotor.B (featherRotor.r i) (featherRotor.chord i) featherRotor.Rhub featherRotor.Rtip p cl 0
      = cl * cos p / (32 * sin p ^ 2) := by
  unfold kSpec cnSpec
  rw [feather_loss]
  have hr : (0 : ℝ) < 6 + i := by positivity
  have := pi_ne_zero
  simp only [featherRotor, annulusRotor, demoRotor, if_true, zero_mul, add_zero]
  rcases eq_or_ne (sin p) 0 with h | h
  · simp [h]
  · field_simp
    ring

private theorem feather_k_nonneg (pitch : ℝ) {p : ℝ} (h0 : 0 < p) (h1 : p ≤ π / 2) : 0 ≤ (1 + sin (p - pitch * (π / 180))) * cos p / (32 * sin p ^ 2) := by
  have hc : 0 ≤ cos p := cos_nonneg_of_mem_Icc ⟨by linarith [pi_pos], h1⟩
  have := neg_one_le_sin (p - pitch * (π / 180))
  have : 0 ≤ 1 + sin (p - pitch * (π / 180)) := by linarith
  positivity

theorem featherRotor_regular (U Omega pitch az : ℝ) (i : ℕ) {p : ℝ} (h0 : 0 < p) (h1 : p ≤ π / 2) : RegularAngle featherRotor U Omega pitch az i p := by
  unfold RegularAngle
  rw [featherRotor_polar, feather_loss, feather_k]
  exact regularK_lossless (lt_of_lt_of_le (by norm_num) (feather_k_nonneg pitch h0 h1))

theorem featherRotor_residual (U pitch az : ℝ) {i : ℕ} (hi : i < featherRotor.n) {p : ℝ} (h0 : 0 < p) (h1 : p ≤ π / 2) :
    stationResidual featherRotor U (30 / π) pitch az i p
      = sin p * wakeOf 1 ((1 + sin (p - pitch * (π / 180))) * cos p / (32 * sin p ^ 2)) - U / (6 + i) * cos p := by
  have hpi := pi_pos
  rw [stationResidual_const rfl (.inr fun _ _ _ => rfl), featherRotor_polar, featherRotor_straight.wind _ _ _ hi]
  rw [(indOut_eq _ _ _ _ _ _ _ _ _ _ _).2.2, feather_loss, feather_k]
  have hreg := regularK_lossless (lt_of_lt_of_le (by norm_num) (feather_k_nonneg pitch h0 h1))
  have hw := inv_axial_wake h0 one_pos hreg.1 hreg.2
  simp only [bemResidual, if_pos h0]
  rw [div_eq_mul_one_div (sin p), hw]
  have hwr : featherRotor.opts.wakeRot = false := rfl
  have hcone : featherRotor.precone = 0 := by simp [featherRotor, annulusRotor, demoRotor]
  have hr : featherRotor.r i = 6 + i := rfl
  rw [hwr, hcone, hr, cos_zero]
  simp only [Bool.false_eq_true, if_false]
  field_simp
  ring

private theorem wakeOf_one_continuous : Continuous (wakeOf 1) := by
  unfold wakeOf buhlWake
  refine Continuous.if_le (by fun_prop) (by fun_prop) continuous_id continuous_const fun k hk => ?_
  rw [show k = 2 / 3 from hk]
  norm_num

theorem wakeOf_one_le {k : ℝ} (hk : 0 ≤ k) : wakeOf 1 k ≤ 1 + √(2 * k) := by
  unfold wakeOf
  split_ifs with h
  · have : k ≤ √(2 * k) := Real.le_sqrt_of_sq_le (by nlinarith)
    linarith
  · have : √(2 * 1 * k - (4 / 3 - 1) * 1) ≤ √(2 * k) := Real.sqrt_le_sqrt (by linarith)
    unfold buhlWake
    linarith

theorem featherRotor_low {U : ℝ} (hU : 6 ≤ U) (pitch az : ℝ) {i : ℕ} (hi : i < featherRotor.n) :
    stationResidual featherRotor U (30 / π) pitch az i (1 / 1000000) ≤ 0 := by
  have hpi := pi_gt_three
  have hi2 : i < 2 := hi
  have hir : (i : ℝ) ≤ 1 := by exact_mod_cast (by omega : i ≤ 1)
  have hi0 : (0 : ℝ) ≤ i := by positivity
  have hle : (1 / 1000000 : ℝ) ≤ π / 2 := by linarith
  have hx : 6 / 7 ≤ U / (6 + i) := div_le_div₀ (by linarith) hU (by linarith) (by linarith)
  rw [featherRotor_residual U pitch az hi (by norm_num) hle]
  have s1 : sin (1 / 1000000) ≤ 1 / 1000000 := sin_le (by norm_num)
  have s0 : 0 < sin (1 / 1000000) := sin_pos_of_pos_of_lt_pi (by norm_num) (by linarith)
  have c1 : 3 / 4 ≤ cos (1 / 1000000) := by
    have := one_sub_sq_div_two_le_cos (x := 1 / 1000000)
    norm_num at this ⊢
    linarith
  have c2 := cos_le_one (1 / 1000000)
  have hk := feather_k_nonneg pitch (p := 1 / 1000000) (by norm_num) hle
  have hw := wakeOf_one_le hk
  have hl := sin_le_one (1 / 1000000 - pitch * (π / 180))
  have hl0 := neg_one_le_sin (1 / 1000000 - pitch * (π / 180))
  have hl2 : 1 + sin (1 / 1000000 - pitch * (π / 180)) ≤ 2 := by linarith
  have hl1 : 0 ≤ 1 + sin (1 / 1000000 - pitch * (π / 180)) := by linarith
  generalize 1 + sin (1 / 1000000 - pitch * (π / 180)) = l at *
  generalize sin (1 / 1000000) = S at *
  generalize cos (1 / 1000000) = C at *
  have h3 : S * √(2 * (l * C / (32 * S ^ 2))) ≤ 1 / 2 := by
    have e3 : S * √(2 * (l * C / (32 * S ^ 2))) = √(l * C / 16) := by
      rw [← Real.sqrt_sq s0.le, ← Real.sqrt_mul (sq_nonneg _), Real.sqrt_sq s0.le]
      congr 1
      field_simp
      ring
    rw [e3, Real.sqrt_le_left (by norm_num)]
    nlinarith
  have h4 := mul_le_mul_of_nonneg_left hw s0.le
  have h5 : 6 / 7 * (3 / 4) ≤ U / (6 + i) * C := mul_le_mul hx c1 (by norm_num) (by linarith)
  linarith

theorem featherRotor_station {U : ℝ} (hU : 6 ≤ U) {pitch az : ℝ} {R' : Rotor ℝ} {L : LoadsOut ℝ}
    (h : distributedAeroLoads someRoot featherRotor U (30 / π) pitch az = (R', .ok L)) {i : ℕ} {s : Station ℝ} (hs : L.stations[i]? = some s) :
    s.warned = false ∧ s.phi ∈ Set.Ioo 0 (π / 2) := by
  have hpi := pi_gt_three
  have hi : i < featherRotor.n := (loads_station h hs).1
  have hi2 : i < 2 := hi
  have hir : (i : ℝ) ≤ 1 := by exact_mod_cast (by omega : i ≤ 1)
  have hi0 : (0 : ℝ) ≤ i := by positivity
  have hle : (1 / 1000000 : ℝ) ≤ π / 2 := by linarith
  have hx : 6 / 7 ≤ U / (6 + i) := div_le_div₀ (by linarith) hU (by linarith) (by linarith)
  obtain ⟨d, h1, -⟩ := solveStation_real (loads_station h hs).2
  have hf : stationErrf featherRotor (deg2rad pitch) (rotorWind featherRotor U (30 / π) (deg2rad az)) i
      = stationResidual featherRotor U (30 / π) pitch az i := rfl
  unfold stationPhi at h1
  rw [if_neg (by simp [num_real]), hf, if_neg (by simp [featherRotor, annulusRotor, demoRotor])] at h1
  have e := fun phi h0 h1 => featherRotor_residual U pitch az hi (p := phi) h0 h1
  set f := stationResidual featherRotor U (30 / π) pitch az i
  have f2 : f (π / 2) = 1 := by
    rw [e _ (by linarith) le_rfl, sin_pi_div_two, cos_pi_div_two]
    norm_num [wakeOf]
  have hsign : f (1 / 1000000) * f (π / 2) ≤ 0 := by
    rw [f2, mul_one]
    exact featherRotor_low hU pitch az hi
  have hcont : ContinuousOn f (Set.Icc (1 / 1000000) (π / 2)) := by
    refine ContinuousOn.congr (f := fun p => sin p * wakeOf 1 ((1 + sin (p - pitch * (π / 180))) * cos p / (32 * sin p ^ 2)) - U / (6 + i) * cos p) ?_ ?_
    · refine ContinuousOn.sub (ContinuousOn.mul continuous_sin.continuousOn (wakeOf_one_continuous.comp_continuousOn ?_)) (by fun_prop)
      refine ContinuousOn.div (by fun_prop) (by fun_prop) fun p hp => ?_
      have : 0 < sin p := sin_pos_of_pos_of_lt_pi (lt_of_lt_of_le (by norm_num) hp.1) (by linarith [hp.2])
      positivity
    · intro phi hp
      exact e phi (lt_of_lt_of_le (by norm_num) hp.1) hp.2
  obtain ⟨p, e1, e2, e3⟩ := someRoot_finds f _ _ hle hcont hsign
  unfold solvePhi at h1
  rw [(bracket_choice f).1 hsign] at h1
  simp only [e1, Except.ok.injEq, Prod.mk.injEq] at h1
  rw [← h1.1]
  refine ⟨h1.2.symm, lt_of_lt_of_le (by norm_num) e3.1, lt_of_le_of_ne e3.2 fun h0 => ?_⟩
  rw [h0, f2] at e2
  norm_num at e2

theorem featherRotor_rises (Re : ℝ) (i : ℕ) : RisingStation featherRotor Re i 0 10 := by
  have hpi := pi_pos
  have ht : featherRotor.theta i = 0 := rfl
  unfold RisingStation
  rw [ht]
  constructor
  · intro a ha b hb hab
    have := sin_lt_sin_of_lt_of_le_pi_div_two (x := a) (y := b) (by linarith [ha.1]) (by linarith [hb.2]) hab
    simpa [featherRotor, annulusRotor] using this
  · intro _
    exact ⟨0, le_rfl, fun _ _ => rfl⟩

/-- The hypotheses of `evaluate_feathers` are met: the call succeeds and pitching from 0° to 10° lowers thrust and root moment. -/
example : ∃ o x x', (evaluate someRoot featherRotor [⟨6, 30 / π, 0⟩, ⟨6, 30 / π, 10⟩] false).2 = .ok o ∧ o.conds = [x, x'] ∧
    x'.acc.T.val < x.acc.T.val ∧ x'.acc.Mb.val < x.acc.Mb.val := by
  have hpi := pi_gt_three
  have hO : 30 / π ≠ 0 := by positivity
  obtain ⟨o, ho⟩ := evaluate_conditions_ok someRoot featherRotor [⟨6, 30 / π, 0⟩, ⟨6, 30 / π, 10⟩] false (by simp) fun c hc => by
    have hc' : c.Omega = 30 / π := by simp only [List.mem_cons, List.not_mem_nil, or_false] at hc; rcases hc with rfl | rfl <;> rfl
    obtain ⟨o, x, h, -⟩ := evaluate_total someRoot_onlyValueError featherRotor c false (by simp [featherRotor, annulusRotor, demoRotor]) rfl
      (by rw [hc']; exact hO) (by simp [featherRotor, annulusRotor, demoRotor])
    exact ⟨o, h⟩
  obtain ⟨x, x', hx⟩ := List.length_eq_two.mp (evaluate_length ho)
  obtain ⟨c1, c2⟩ := evaluate_feathers someRoot someRoot_exact featherRotor _ o false ho 0 1 _ _ x x' rfl (by rw [hx]; rfl) rfl (by rw [hx]; rfl)
    featherRotor_straight rfl (fun _ _ => .inr fun _ _ _ => rfl) (by simp [featherRotor, annulusRotor, demoRotor])
    (by simp [featherRotor, annulusRotor, demoRotor]) (by norm_num [featherRotor, annulusRotor, demoRotor])
    (fun i _ => by simp only [featherRotor, annulusRotor]; positivity) rfl rfl (by norm_num) rfl (by positivity) rfl (by norm_num)
    (fun i _ => featherRotor_rises _ i)
    (fun i _ => ⟨featherRotor_regular _ _ _ _ i (by norm_num) (by linarith), featherRotor_regular _ _ _ _ i (by linarith) le_rfl⟩)
    (fun k hk L hL i s hs => by
      have e : distributedAeroLoads someRoot featherRotor 6 (30 / π) 0 (k * (360 / featherRotor.nSector)) = (_, .ok L) := Prod.ext rfl hL
      obtain ⟨w, hphi⟩ := featherRotor_station le_rfl e hs
      have hi := (loads_station e hs).1
      have hV := featherRotor_straight.wind 6 (30 / π) (k * (360 / featherRotor.nSector) * (π / 180)) hi
      have hc := featherRotor_straight.cos_pos
      have hri : 0 < featherRotor.r i := featherRotor_straight.hub.trans (featherRotor_straight.range hi).1
      obtain ⟨f1, -⟩ := station_facts (R := featherRotor) rfl (.inr fun _ _ _ => rfl) e hO hs hV (by positivity) (by positivity)
      rw [featherRotor_polar] at f1
      refine ⟨w, hphi, ?_, featherRotor_regular _ _ _ _ i hphi.1 hphi.2.le⟩
      rw [f1]
      have := neg_one_le_sin (s.phi - 0 * (π / 180))
      simp only
      linarith)
    (fun k hk L hL i s hs => by
      have e : distributedAeroLoads someRoot featherRotor 6 (30 / π) 10 (k * (360 / featherRotor.nSector)) = (_, .ok L) := Prod.ext rfl hL
      obtain ⟨w, hphi⟩ := featherRotor_station le_rfl e hs
      exact ⟨w, featherRotor_regular _ _ _ _ i hphi.1 hphi.2.le⟩)
  exact ⟨o, x, x', ho, hx, c1, c2⟩

end Verif
