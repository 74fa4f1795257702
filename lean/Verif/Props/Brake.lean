import Verif.Lemmas.XR
import Verif.Props.Bracket
import Mathlib.Analysis.SpecialFunctions.Trigonometric.InverseDeriv

/-!
# The propeller-brake region with losses (C32)

The lines `! factortip = B/2.0_dp*(Rtip - r)/(r*abs(sphi))` of `bem.f90` (ll. 60 and 67) are commented out; the lines in force divide
by `sphi` itself.
-/

namespace Verif

/-- **C32** Over any arithmetic in which NaN behaves as in IEEE 754 (doubles included): if the argument of the arc cosine of a loss
factor exceeds one at the inflow angle `-1e-6`, the bracket of the propeller-brake region is not searched. -/
theorem brake_region_skipped {α : Type} [Num α] (L : NaNLaws α) (R : Rotor α) (pitch : α) (x : Sec α)
    (h : LossAboveOne R.opts R.B x.r R.Rhub R.Rtip (-bemEps)) :
    bracket (errFun R pitch x) = if 0 < errFun R pitch x bemEps * errFun R pitch x (Num.pi / Num.nat 2) then
      (Num.pi / Num.nat 2, Num.pi - bemEps) else (bemEps, Num.pi / Num.nat 2) := by
  unfold bracket
  rw [if_neg (fun hc : _ ∧ 0 < errFun R pitch x (-bemEps) => L.lt_right _ _ (errFun_nan L R pitch x _ h) hc.2)]

namespace XR

theorem eps_eq : (bemEps : XR) = fin (1 / 1000000) := by
  unfold bemEps
  rw [nat_eq, nat_eq, fin_div _ _ (by norm_num)]
  norm_num

theorem half_pi_eq : (Num.pi / Num.nat 2 : XR) = fin (dpi / 2) := by
  rw [pi_eq, nat_eq, fin_div _ _ (by norm_num)]
  norm_num

theorem dpi_gt_three : 3 < dpi := by
  unfold dpi
  norm_num

end XR

open XR in
/-- **C32** With tip or hub losses enabled no station strictly between hub and tip is ever given a negative inflow angle: the residual is
NaN at all of them, whatever the airfoil, the options and the operating point.  (`bq` is any root finder that returns a point of the
interval.) -/
theorem brake_solutions_false (bq : RootFinder XR) (hbq : ∀ f a b p, bq f a b = .ok p → a ≤ p) (R : Rotor XR) (pitch : XR) (x : Sec XR)
    (r h t : ℝ) (hr : x.r = fin r) (hh : R.Rhub = fin h) (ht : R.Rtip = fin t) (h0 : 0 < h) (h1 : h < r) (h2 : r < t) (hB : 0 < R.B)
    (ho : R.opts.tipLoss = true ∨ R.opts.hubLoss = true) :
    (∀ phi : ℝ, -Real.pi < phi → phi < 0 → errFun R pitch x (fin phi) = nan) ∧
    (∀ phi w, solvePhi bq (errFun R pitch x) = .ok (phi, w) → ¬ phi < 0) := by
  have key : ∀ phi : ℝ, -Real.pi < phi → phi < 0 → LossAboveOne R.opts R.B x.r R.Rhub R.Rtip (fin phi) := by
    intro phi hp hn
    rw [hr, hh, ht]
    exact lossAboveOne R.opts R.B hB r h t phi h0 h1 h2 ho hp hn
  refine ⟨fun phi hp hn => (isNaN_iff _).1 (errFun_nan nanLaws R pitch x _ (key phi hp hn)), ?_⟩
  intro phi w hphi hneg
  have hb := brake_region_skipped nanLaws R pitch x (by
    rw [eps_eq, fin_neg]
    exact key _ (by linarith [Real.pi_gt_three]) (by norm_num))
  unfold solvePhi at hphi
  simp only at hphi
  rw [hb] at hphi
  have hle : ∀ y : ℝ, 0 < y → ¬ (fin y ≤ phi ∧ phi < 0) := by
    rintro y hy ⟨ha, hb⟩
    cases phi with
    | nan => exact hb
    | pinf => exact hb
    | ninf => exact ha
    | fin z =>
      have ha' : y ≤ z := ha
      have hb' : z < 0 := hb
      linarith
  have h3 := dpi_gt_three
  split at hphi
  · rename_i p hp
    simp only [Except.ok.injEq, Prod.mk.injEq] at hphi
    obtain ⟨rfl, -⟩ := hphi
    have := hbq _ _ _ _ hp
    split at this
    · rw [half_pi_eq] at this
      exact hle _ (by linarith) ⟨this, hneg⟩
    · rw [eps_eq] at this
      exact hle _ (by norm_num) ⟨this, hneg⟩
  · simp only [Except.ok.injEq, Prod.mk.injEq] at hphi
    obtain ⟨rfl, -⟩ := hphi
    have : (0 : ℝ) < 0 := hneg
    linarith
  · simp at hphi

/-! ## An operating point that is missed -/

/-- Lift 1 up to an angle of attack of 2 rad, -1 beyond -/
noncomputable def brakeLift (alpha : ℝ) : ℝ := if alpha ≤ 2 then 1 else -1

/-- The residual of the BEM equations (Ning 2014) for a section of solidity 1/10 at the local speed ratio 10, with lift `brakeLift`, no
drag, and loss factor `F`. -/
noncomputable def brakeResidual (F phi : ℝ) : ℝ :=
  let k := brakeLift phi * Real.cos phi / (40 * F * Real.sin phi ^ 2)
  let kp := brakeLift phi / (40 * F * Real.cos phi)
  if 0 < phi then Real.sin phi * (1 / (1 - axialInduction phi k F)) - Real.cos phi / 10 * (1 - kp)
  else Real.sin phi * (1 - k) - Real.cos phi / 10 * (1 - kp)

/-- Prandtl's loss factor at 10 m of a blade from 5 m to 20 m, tip and hub: the inflow enters with its absolute value. -/
noncomputable def brakeLoss (phi : ℝ) : ℝ := (2 / Real.pi * Real.arccos (Real.exp (-(3 / 2 / |Real.sin phi|)))) ^ 2

theorem arccos_bounds (s : ℝ) (hs : 0 < s) (hs1 : s ≤ 1) :
    Real.pi / 3 ≤ Real.arccos (Real.exp (-(3 / 2 / s))) ∧ Real.arccos (Real.exp (-(3 / 2 / s))) ≤ Real.pi / 2 := by
  constructor
  · have h1 : Real.exp (-(3 / 2 / s)) ≤ 1 / 2 := by
      have h2 : -(3 / 2 / s) ≤ -1 := by
        have : 1 ≤ 3 / 2 / s := by rw [le_div_iff₀ hs]; linarith
        linarith
      have h3 : Real.exp (-(3 / 2 / s)) ≤ Real.exp (-1) := Real.exp_le_exp.2 h2
      have h4 : Real.exp (-1) ≤ 1 / 2 := by
        rw [Real.exp_neg, inv_le_comm₀ (Real.exp_pos 1) (by norm_num)]
        have := Real.add_one_le_exp 1
        norm_num at this ⊢
        exact this
      linarith
    have h5 : Real.pi / 3 = Real.arccos (1 / 2) := by
      rw [← Real.cos_pi_div_three, Real.arccos_cos (by positivity) (by linarith [Real.pi_pos])]
    rw [h5]
    exact Real.antitone_arccos h1
  · exact Real.arccos_le_pi_div_two.2 (Real.exp_pos _).le

/-- The residual is positive for all positive inflow angles. -/
theorem brakeResidual_pos (F phi : ℝ) (hF : 4 / 9 ≤ F) (hF1 : F ≤ 5 / 4) (h0 : 0 < phi) (h1 : phi < Real.pi) :
    0 < brakeResidual F phi := by
  have hF0 : 0 < F := by linarith
  have hs := Real.sin_pos_of_pos_of_lt_pi h0 h1
  have hs1 := Real.sin_le_one phi
  have hsc := Real.sin_sq_add_cos_sq phi
  have hpi3 := Real.pi_gt_d2
  have hpi4 := Real.pi_lt_d2
  unfold brakeResidual
  simp only [if_pos h0]
  rcases lt_trichotomy phi (Real.pi / 2) with h | h | h
  · have hc : 0 < Real.cos phi := Real.cos_pos_of_mem_Ioo ⟨by linarith, h⟩
    rw [brakeLift, if_pos (by linarith)]
    have := loaded_pos (F := F) h0 hs hc (Real.cos_le_one phi) hF0 hF1 rfl
    have e1 : Real.cos phi / 10 * (1 - 1 / (40 * F * Real.cos phi)) = Real.cos phi / 10 - 1 / (400 * F) := by
      field_simp
      ring
    rw [one_mul, e1]
    have : 0 < 1 / (400 * F) := by positivity
    linarith
  · subst h
    simp only [Real.cos_pi_div_two, Real.sin_pi_div_two]
    have := inv_axial_gt (k := 0) (F := F) h0 hF0 hF1 le_rfl
    simp only [mul_zero, zero_div, zero_mul, sub_zero]
    linarith
  · have hc : Real.cos phi < 0 := Real.cos_neg_of_pi_div_two_lt_of_lt h (by linarith)
    rcases le_or_gt phi 2 with h2 | h2
    · -- the lift drives the flow, but weakly
      rw [brakeLift, if_pos h2, one_mul]
      have hs2 : 7 / 10 ≤ Real.sin phi := by
        have h3 := Real.mul_le_sin (x := Real.pi - phi) (by linarith) (by linarith)
        rw [Real.sin_pi_sub] at h3
        have h4 : 7 / 10 ≤ 2 / Real.pi * (Real.pi - phi) := by
          rw [div_mul_eq_mul_div, div_le_div_iff₀ (by norm_num) (by linarith)]
          nlinarith
        linarith
      have hk : -(1 / 2) < Real.cos phi / (40 * F * Real.sin phi ^ 2) := by
        rw [lt_div_iff₀ (by positivity)]
        have h5 := Real.neg_one_le_cos phi
        have h6 : 49 / 100 ≤ Real.sin phi ^ 2 := by nlinarith
        have h7 : 4 / 9 * (49 / 100) ≤ F * Real.sin phi ^ 2 := by gcongr
        nlinarith
      have hk2 : Real.cos phi / (40 * F * Real.sin phi ^ 2) ≤ 2 / 3 := by
        have : Real.cos phi / (40 * F * Real.sin phi ^ 2) ≤ 0 := div_nonpos_of_nonpos_of_nonneg hc.le (by positivity)
        linarith
      rw [inv_axial_momentum h0 hk2 (by linarith)]
      have e1 : Real.cos phi / 10 * (1 - 1 / (40 * F * Real.cos phi)) = Real.cos phi / 10 - 1 / (400 * F) := by
        have := hc.ne
        field_simp
        ring
      rw [e1]
      have : 0 < 1 / (400 * F) := by positivity
      nlinarith
    · rw [brakeLift, if_neg (not_le.2 h2), neg_one_mul]
      have hp := loaded_pos (F := F) h0 hs (neg_pos.2 hc) (by linarith [Real.neg_one_le_cos phi]) hF0 hF1 rfl
      have h5 := inv_axial_gt (phi := phi) (k := -Real.cos phi / (40 * F * Real.sin phi ^ 2)) (F := F) h0 hF0 hF1
        (by have : 0 < -Real.cos phi := by linarith
            positivity)
      have h6 : Real.sin phi * (5 / 8) ≤
          Real.sin phi * (1 / (1 - axialInduction phi (-Real.cos phi / (40 * F * Real.sin phi ^ 2)) F)) := by gcongr
      have e1 : Real.cos phi / 10 * (1 - -1 / (40 * F * Real.cos phi)) = Real.cos phi / 10 + 1 / (400 * F) := by
        have := hc.ne
        field_simp
        ring
      rw [e1]
      have h7 : 1 / (400 * F) ≤ 1 / 100 := by
        rw [div_le_div_iff₀ (by positivity) (by norm_num)]
        linarith
      nlinarith

/-- The intended residual is continuous at negative inflow angles. -/
theorem brakeResidual_continuousOn (lo hi : ℝ) (h1 : -(Real.pi / 2) < lo) (h2 : hi < 0) :
    ContinuousOn (fun phi => brakeResidual (brakeLoss phi) phi) (Set.Icc lo hi) := by
  have hpi := Real.pi_pos
  have hEq : Set.EqOn (fun phi => brakeResidual (brakeLoss phi) phi)
      (fun phi => Real.sin phi * (1 - Real.cos phi / (40 * brakeLoss phi * Real.sin phi ^ 2)) -
        Real.cos phi / 10 * (1 - 1 / (40 * brakeLoss phi * Real.cos phi))) (Set.Icc lo hi) := by
    rintro phi ⟨ha, hb⟩
    simp only [brakeResidual, if_neg (not_lt.2 (by linarith : phi ≤ 0)), brakeLift, if_pos (by linarith : phi ≤ 2), one_mul]
  refine ContinuousOn.congr ?_ hEq
  have hs : ∀ phi ∈ Set.Icc lo hi, Real.sin phi < 0 := fun phi ⟨ha, hb⟩ =>
    Real.sin_neg_of_neg_of_neg_pi_lt (by linarith) (by linarith)
  have hc : ∀ phi ∈ Set.Icc lo hi, 0 < Real.cos phi := fun phi ⟨ha, hb⟩ =>
    Real.cos_pos_of_mem_Ioo ⟨by linarith, by linarith⟩
  have hF : ∀ phi ∈ Set.Icc lo hi, brakeLoss phi ≠ 0 := by
    intro phi hphi
    have h3 := hs phi hphi
    have h4 := (arccos_bounds (|Real.sin phi|) (abs_pos.2 h3.ne) (Real.abs_sin_le_one phi)).1
    unfold brakeLoss
    have : 0 < Real.arccos (Real.exp (-(3 / 2 / |Real.sin phi|))) := by linarith
    positivity
  have hcont : ContinuousOn brakeLoss (Set.Icc lo hi) := by
    unfold brakeLoss
    refine ContinuousOn.pow (continuousOn_const.mul (Real.continuous_arccos.comp_continuousOn ?_)) 2
    refine Real.continuous_exp.comp_continuousOn (ContinuousOn.neg (ContinuousOn.div continuousOn_const ?_ ?_))
    · exact (Real.continuous_sin.abs).continuousOn
    · intro phi hphi
      exact abs_ne_zero.2 (hs phi hphi).ne
  have c1 : ContinuousOn Real.sin (Set.Icc lo hi) := Real.continuous_sin.continuousOn
  have c2 : ContinuousOn Real.cos (Set.Icc lo hi) := Real.continuous_cos.continuousOn
  refine (c1.mul (continuousOn_const.sub (c2.div ((continuousOn_const.mul hcont).mul (c1.pow 2)) ?_))).sub
    ((c2.div_const 10).mul (continuousOn_const.sub (continuousOn_const.div ((continuousOn_const.mul hcont).mul c2) ?_)))
  · intro phi hphi
    exact mul_ne_zero (mul_ne_zero (by norm_num) (hF phi hphi)) (pow_ne_zero 2 (hs phi hphi).ne)
  · intro phi hphi
    exact mul_ne_zero (mul_ne_zero (by norm_num) (hF phi hphi)) (hc phi hphi).ne'

theorem brakeLoss_bounds (phi : ℝ) (hs : Real.sin phi ≠ 0) : 4 / 9 ≤ brakeLoss phi ∧ brakeLoss phi ≤ 1 := by
  have hpi := Real.pi_pos
  have h := arccos_bounds (|Real.sin phi|) (abs_pos.2 hs) (Real.abs_sin_le_one phi)
  unfold brakeLoss
  have h1 : 2 / 3 ≤ 2 / Real.pi * Real.arccos (Real.exp (-(3 / 2 / |Real.sin phi|))) := by
    calc (2 / 3 : ℝ) = 2 / Real.pi * (Real.pi / 3) := by field_simp
      _ ≤ _ := by gcongr; exact h.1
  have h2 : 2 / Real.pi * Real.arccos (Real.exp (-(3 / 2 / |Real.sin phi|))) ≤ 1 := by
    calc _ ≤ 2 / Real.pi * (Real.pi / 2) := by gcongr; exact h.2
      _ = 1 := by field_simp
  constructor <;> nlinarith

/-- The residual is negative at -45°. -/
theorem brakeResidual_lo (F : ℝ) (hF : 4 / 9 ≤ F) : brakeResidual F (-Real.pi / 4) < 0 := by
  have hpi3 := Real.pi_gt_d2
  have hs : Real.sin (-Real.pi / 4) = -(Real.sqrt 2 / 2) := by rw [neg_div, Real.sin_neg, Real.sin_pi_div_four]
  have hc : Real.cos (-Real.pi / 4) = Real.sqrt 2 / 2 := by rw [neg_div, Real.cos_neg, Real.cos_pi_div_four]
  have hs1 : 1 < Real.sqrt 2 := by
    rw [Real.lt_sqrt (by norm_num)]
    norm_num
  have hsq : Real.sqrt 2 ^ 2 = 2 := Real.sq_sqrt (by norm_num)
  have hs2 : Real.sqrt 2 < 2 := by nlinarith
  have hF0 : 0 < F := by linarith
  unfold brakeResidual
  simp only [if_neg (not_lt.2 (by linarith : -Real.pi / 4 ≤ 0)), brakeLift, if_pos (by linarith : -Real.pi / 4 ≤ 2), one_mul, hs, hc]
  have e : (-(Real.sqrt 2 / 2)) ^ 2 = 1 / 2 := by
    rw [neg_sq, div_pow, hsq]
    norm_num
  rw [e]
  have hk : Real.sqrt 2 / 2 / (40 * F * (1 / 2)) ≤ 1 / 4 := by
    rw [div_le_div_iff₀ (by positivity) (by norm_num)]
    linarith
  have hkp : 1 / (40 * F * (Real.sqrt 2 / 2)) ≤ 1 := by
    rw [div_le_one (by positivity)]
    nlinarith
  nlinarith

/-- The residual is positive just below zero. -/
theorem brakeResidual_hi (F : ℝ) (hF0 : 0 < F) (hF : F ≤ 1) : 0 < brakeResidual F (-(1 / 1000000)) := by
  have hpi3 := Real.pi_gt_d2
  have hs0 : 0 < Real.sin (1 / 1000000) := Real.sin_pos_of_pos_of_lt_pi (by norm_num) (by linarith)
  have hs1 : Real.sin (1 / 1000000) < 1 / 1000000 := Real.sin_lt (by norm_num)
  have hc : 1 / 2 ≤ Real.cos (1 / 1000000) := by
    have := Real.one_sub_sq_div_two_le_cos (x := 1 / 1000000)
    norm_num at this ⊢
    linarith
  have hc1 := Real.cos_le_one (1 / 1000000)
  unfold brakeResidual
  simp only [if_neg (not_lt.2 (by norm_num : (-(1 / 1000000) : ℝ) ≤ 0)), brakeLift, if_pos (by norm_num : (-(1 / 1000000) : ℝ) ≤ 2),
    one_mul, Real.sin_neg, Real.cos_neg, neg_sq]
  set s := Real.sin (1 / 1000000)
  set c := Real.cos (1 / 1000000)
  have hk : s * (c / (40 * F * s ^ 2)) = c / (40 * F * s) := by field_simp
  have hc0 : 0 < c := by linarith
  have hk2 : 1 ≤ c / (40 * F * s) := by
    rw [le_div_iff₀ (by positivity)]
    have : F * s ≤ 1 * (1 / 1000000) := by
      apply mul_le_mul hF hs1.le hs0.le (by norm_num)
    nlinarith
  have hkp : 0 < 1 / (40 * F * c) := by positivity
  nlinarith

/-- The propeller-brake region holds a solution. -/
theorem brake_solution : ∃ phi ∈ Set.Ioo (-Real.pi / 4) (-(1 / 1000000)), brakeResidual (brakeLoss phi) phi = 0 := by
  have hpi3 := Real.pi_gt_d2
  have hpi4 := Real.pi_lt_d2
  have hlo := brakeResidual_lo (brakeLoss (-Real.pi / 4)) (brakeLoss_bounds (-Real.pi / 4) (Real.sin_neg_of_neg_of_neg_pi_lt
    (by linarith) (by linarith)).ne).1
  have hF := brakeLoss_bounds (-(1 / 1000000)) (Real.sin_neg_of_neg_of_neg_pi_lt (by norm_num) (by linarith)).ne
  have hhi := brakeResidual_hi (brakeLoss (-(1 / 1000000))) (by linarith [hF.1]) hF.2
  have hcont := brakeResidual_continuousOn (-Real.pi / 4) (-(1 / 1000000)) (by linarith) (by norm_num)
  obtain ⟨phi, ⟨h1, h2⟩, h3⟩ := intermediate_value_Ioo (by linarith) hcont ⟨hlo, hhi⟩
  exact ⟨phi, ⟨h1, h2⟩, h3⟩

open XR

/-- The same lift over the extended reals -/
noncomputable def brakeAirfoil : AirfoilI XR where
  evaluate alpha _ := (lift (fun a => fin (brakeLift a)) alpha, fin 0)
  dclda _ _ := fin 0
  dcldRe _ _ := fin 0
  dcdda _ _ := fin 0
  dcddRe _ _ := fin 0

/-- A blade from 5 m to 20 m with default options -/
noncomputable def brakeRotor : Rotor XR where
  n := 1
  r _ := fin 10
  chord _ := fin (2 * dpi / 3)
  theta _ := fin 0
  af _ := brakeAirfoil
  Rhub := fin 5
  Rtip := fin 20
  B := 3
  rho := fin 1
  mu := fin 1
  precone := fin 0
  tilt := fin 0
  yaw := fin 0
  shearExp := fin 0
  hubHt := fin 90
  opts := ⟨true, true, true, true⟩
  iterRe := 1
  derivatives := false
  precurve _ := fin 0
  precurveTip := fin 0
  presweep _ := fin 0
  presweepTip := fin 0
  rotorR := fin 20
  nSector := 1
  inv := none
  pitch := none
  saved := none

/-- Its section at 10 m at a local speed ratio of 10 -/
noncomputable def brakeSec : Sec XR := ⟨fin 10, fin (2 * dpi / 3), fin 0, brakeAirfoil, fin 1, fin 10⟩

/-- The loss factor as the code computes it at positive inflow angles, with the double for π. -/
noncomputable def brakeLossCode (phi : ℝ) : ℝ := (2 / dpi * Real.arccos (Real.exp (-(3 / 2 / Real.sin phi)))) ^ 2

theorem brakeLossCode_bounds (phi : ℝ) (hs : 0 < Real.sin phi) : 4 / 9 ≤ brakeLossCode phi ∧ brakeLossCode phi ≤ 5 / 4 := by
  have h3 := dpi_gt_three
  have hd := dpi_lt
  have hpi4 := Real.pi_lt_d2
  have h := arccos_bounds (Real.sin phi) hs (Real.sin_le_one phi)
  have hpi := Real.pi_pos
  unfold brakeLossCode
  have h1 : 2 / 3 ≤ 2 / dpi * Real.arccos (Real.exp (-(3 / 2 / Real.sin phi))) := by
    calc (2 / 3 : ℝ) = 2 / Real.pi * (Real.pi / 3) := by field_simp
      _ ≤ 2 / dpi * Real.arccos (Real.exp (-(3 / 2 / Real.sin phi))) := by
        apply mul_le_mul _ h.1 (by positivity) (by positivity)
        exact div_le_div_of_nonneg_left (by norm_num) (by linarith) hd.le
  have h2 : 2 / dpi * Real.arccos (Real.exp (-(3 / 2 / Real.sin phi))) ≤ 11 / 10 := by
    calc _ ≤ 2 / dpi * (Real.pi / 2) := by
          have : 0 ≤ 2 / dpi := by positivity
          exact mul_le_mul_of_nonneg_left h.2 this
      _ = Real.pi / dpi := by field_simp
      _ ≤ 11 / 10 := by
        rw [div_le_div_iff₀ (by linarith) (by norm_num)]
        linarith
  constructor <;> nlinarith

/-- The code's residual at positive inflow angles other than 90°. -/
theorem brakeSec_residual (phi : ℝ) (h0 : 0 < phi) (h1 : phi < Real.pi) (hc : Real.cos phi ≠ 0)
    (hk : -1 < brakeLift phi * Real.cos phi / (40 * brakeLossCode phi * Real.sin phi ^ 2)) :
    errFun brakeRotor 0 brakeSec (fin phi) = fin (brakeResidual (brakeLossCode phi) phi) := by
  have hs := Real.sin_pos_of_pos_of_lt_pi h0 h1
  have hF := brakeLossCode_bounds phi hs
  have hF0 : 0 < brakeLossCode phi := by linarith [hF.1]
  have hd : dpi ≠ 0 := by have := dpi_gt_three; linarith
  have e : errFun brakeRotor 0 brakeSec (fin phi) = (inductionFactors (fin 10) (fin (2 * dpi / 3)) (fin 5) (fin 20) (fin phi)
      (fin (brakeLift phi)) (fin 0) 3 (fin 1) (fin 10) ⟨true, true, true, true⟩).fzero := by
    have ha : fin phi - (fin 0 + (0 : XR)) = fin phi := by
      rw [zero_eq, fin_add, fin_sub]
      simp
    have he : ∀ w : XR, brakeAirfoil.evaluate (fin phi - (fin 0 + 0)) w = (fin (brakeLift phi), fin 0) := by
      intro w
      rw [ha]
      rfl
    show (bemPass brakeRotor 0 (fin phi) brakeSec 0 0).fzero = _
    simp only [bemPass, relativeWind, brakeRotor, brakeSec, he]
  rw [e]
  have hσ : solidity 3 (fin (2 * dpi / 3)) (fin 10) = fin (1 / 10) := by
    unfold solidity
    rw [nat_eq, nat_eq, pi_eq, fin_div _ _ (by norm_num), fin_div _ _ hd, fin_mul, fin_div _ _ (by norm_num)]
    congr 1
    push_cast
    field_simp
  have hexp : Real.exp (-(3 / 2 / Real.sin phi)) ≤ 1 := by
    rw [Real.exp_le_one_iff]
    have : 0 < 3 / 2 / Real.sin phi := by positivity
    linarith
  have htip : tipFactor true 3 (fin 10) (fin 20) (fin (Real.sin phi)) = fin (2 / dpi * Real.arccos (Real.exp (-(3 / 2 / Real.sin phi)))) := by
    unfold tipFactor
    simp only [if_true]
    rw [nat_eq, nat_eq, pi_eq, fin_sub, fin_div ((3 : ℕ) : ℝ) ((2 : ℕ) : ℝ) (by norm_num), fin_mul, fin_mul,
      fin_div _ _ (mul_ne_zero (by norm_num) hs.ne'), fin_neg, exp_fin,
      show ((3 : ℕ) : ℝ) / ((2 : ℕ) : ℝ) * (20 - 10) / (10 * Real.sin phi) = 3 / 2 / Real.sin phi by
        push_cast; field_simp; norm_num,
      acos_fin _ (by linarith [Real.exp_pos (-(3 / 2 / Real.sin phi))]) hexp, fin_div _ _ hd, fin_mul]
    norm_num
  have hhub : hubFactor true 3 (fin 10) (fin 5) (fin (Real.sin phi)) = fin (2 / dpi * Real.arccos (Real.exp (-(3 / 2 / Real.sin phi)))) := by
    unfold hubFactor
    simp only [if_true]
    rw [nat_eq, nat_eq, pi_eq, fin_sub, fin_div ((3 : ℕ) : ℝ) ((2 : ℕ) : ℝ) (by norm_num), fin_mul, fin_mul,
      fin_div _ _ (mul_ne_zero (by norm_num) hs.ne'), fin_neg, exp_fin,
      show ((3 : ℕ) : ℝ) / ((2 : ℕ) : ℝ) * (10 - 5) / (5 * Real.sin phi) = 3 / 2 / Real.sin phi by
        push_cast; field_simp; norm_num,
      acos_fin _ (by linarith [Real.exp_pos (-(3 / 2 / Real.sin phi))]) hexp, fin_div _ _ hd, fin_mul]
    norm_num
  have hFx : tipFactor true 3 (fin 10) (fin 20) (fin (Real.sin phi)) * hubFactor true 3 (fin 10) (fin 5) (fin (Real.sin phi)) =
      fin (brakeLossCode phi) := by
    rw [htip, hhub, fin_mul, brakeLossCode, pow_two]
  have hcn : normalCoef true (fin (brakeLift phi)) (fin 0) (fin (Real.sin phi)) (fin (Real.cos phi)) = fin (brakeLift phi * Real.cos phi) := by
    simp [normalCoef, fin_mul, fin_add]
  have hct : tangCoef true (fin (brakeLift phi)) (fin 0) (fin (Real.sin phi)) (fin (Real.cos phi)) = fin (brakeLift phi * Real.sin phi) := by
    simp [tangCoef, fin_mul, fin_sub]
  have hkx : bemK (fin (1 / 10)) (fin (brakeLift phi * Real.cos phi)) (fin (brakeLossCode phi)) (fin (Real.sin phi)) =
      fin (brakeLift phi * Real.cos phi / (40 * brakeLossCode phi * Real.sin phi ^ 2)) := by
    unfold bemK
    rw [nat_eq, fin_mul, fin_div _ _ (by norm_num), fin_div _ _ hF0.ne', fin_div _ _ hs.ne', fin_div _ _ hs.ne']
    congr 1
    push_cast
    field_simp
    ring
  have hkpx : bemKp (fin (1 / 10)) (fin (brakeLift phi * Real.sin phi)) (fin (brakeLossCode phi)) (fin (Real.sin phi))
      (fin (Real.cos phi)) = fin (brakeLift phi / (40 * brakeLossCode phi * Real.cos phi)) := by
    unfold bemKp
    rw [nat_eq, fin_mul, fin_div _ _ (by norm_num), fin_div _ _ hF0.ne', fin_div _ _ hs.ne', fin_div _ _ hc]
    congr 1
    push_cast
    field_simp
    ring
  have ha := axialInduction_lt_one phi _ _ h0 hF0 hk
  unfold inductionFactors
  simp only [sin_fin, cos_fin, hσ, hFx, hcn, hct, hkx, hkpx, Bool.not_true, Bool.false_eq_true, if_false]
  rw [axialInduction_fin phi _ _ h0 hF0 hk]
  unfold bemResidual brakeResidual
  simp only
  rw [if_pos (show 0 < fin phi from h0), if_pos h0, one_eq, fin_sub, fin_sub, fin_div _ _ (by linarith), fin_div _ _ one_ne_zero,
    fin_div _ _ (by norm_num), fin_mul, fin_sub]
  congr 1
  rw [div_one, mul_one_div]

/-- **C32** A solution that is missed with the default options: at an inner station of a blade with solidity 1/10 and local speed ratio
10 the BEM equations with Prandtl's losses have a solution in the propeller-brake region and none at positive inflow angles; the code
warns and reports the inflow angle zero, for every root finder that demands a change of sign. -/
theorem brake_solution_missed_false (bq : RootFinder XR) (hbq : ∀ f a b, 0 < f a * f b → bq f a b = .error .valueError) :
    (∃ phi ∈ Set.Ioo (-Real.pi / 4) (-(1 / 1000000)), brakeResidual (brakeLoss phi) phi = 0) ∧
    (∀ phi, 0 < phi → phi < Real.pi → 0 < brakeResidual (brakeLoss phi) phi) ∧
    solvePhi bq (errFun brakeRotor 0 brakeSec) = .ok (0, true) := by
  refine ⟨brake_solution, fun phi h0 h1 => ?_, ?_⟩
  · have := brakeLoss_bounds phi (Real.sin_pos_of_pos_of_lt_pi h0 h1).ne'
    exact brakeResidual_pos _ _ this.1 (by linarith [this.2]) h0 h1
  · have h3 := dpi_gt_three
    have hd := dpi_lt
    have hd2 := lt_dpi
    have hpi4 := Real.pi_lt_d2
    have hpi3 := Real.pi_gt_d2
    have val : ∀ phi : ℝ, 0 < phi → phi < Real.pi → Real.cos phi ≠ 0 → 0 < brakeLift phi * Real.cos phi →
        ∃ y : ℝ, 0 < y ∧ errFun brakeRotor 0 brakeSec (fin phi) = fin y := by
      intro phi h0 h1 hc hl
      have hs := Real.sin_pos_of_pos_of_lt_pi h0 h1
      have hF := brakeLossCode_bounds phi hs
      refine ⟨_, brakeResidual_pos _ _ hF.1 hF.2 h0 h1, brakeSec_residual phi h0 h1 hc ?_⟩
      have hF0 : 0 < brakeLossCode phi := by linarith [hF.1]
      have : 0 < brakeLift phi * Real.cos phi / (40 * brakeLossCode phi * Real.sin phi ^ 2) := by positivity
      linarith
    have hcos1 : 0 < Real.cos (1 / 1000000) := Real.cos_pos_of_mem_Ioo ⟨by linarith, by linarith⟩
    have hcos2 : 0 < Real.cos (dpi / 2) := Real.cos_pos_of_mem_Ioo ⟨by linarith, by linarith⟩
    have hcos3 : Real.cos (dpi - 1 / 1000000) < 0 := Real.cos_neg_of_pi_div_two_lt_of_lt (by linarith) (by linarith)
    obtain ⟨y1, hy1, e1⟩ := val (1 / 1000000) (by norm_num) (by linarith) hcos1.ne' (by
      rw [brakeLift, if_pos (by norm_num)]; linarith)
    obtain ⟨y2, hy2, e2⟩ := val (dpi / 2) (by linarith) (by linarith) hcos2.ne' (by
      rw [brakeLift, if_pos (by linarith)]; linarith)
    obtain ⟨y3, hy3, e3⟩ := val (dpi - 1 / 1000000) (by linarith) (by linarith) hcos3.ne (by
      rw [brakeLift, if_neg (by push Not; linarith)]; linarith)
    have hb := brake_region_skipped nanLaws brakeRotor 0 brakeSec (by
      rw [eps_eq, fin_neg]
      exact lossAboveOne _ _ (by norm_num [brakeRotor]) 10 5 20 _ (by norm_num) (by norm_num) (by norm_num) (Or.inl rfl)
        (by linarith) (by norm_num))
    have hpm : (Num.pi - bemEps : XR) = fin (dpi - 1 / 1000000) := by rw [eps_eq, pi_eq, fin_sub]
    rw [hpm, half_pi_eq, eps_eq, e1, e2, fin_mul, if_pos (show (0 : XR) < fin (y1 * y2) from mul_pos hy1 hy2)] at hb
    unfold solvePhi
    simp only
    rw [hb, hbq _ _ _ (by rw [e2, e3, fin_mul]; exact mul_pos hy2 hy3)]

/-- A root finder that returns the lower end of finite intervals. -/
noncomputable def lowerEnd : RootFinder XR := fun _ a _ => match a with
  | fin y => .ok (fin y)
  | _ => .error .valueError

/-- The hypotheses of `brake_solutions_false` are met by this section and this root finder. -/
example : errFun brakeRotor 0 brakeSec (fin (-(1 / 2))) = nan ∧
    ∀ phi w, solvePhi lowerEnd (errFun brakeRotor 0 brakeSec) = .ok (phi, w) → ¬ phi < 0 := by
  have h := brake_solutions_false lowerEnd (fun f a b p hp => by
      cases a with
      | fin y =>
        simp only [lowerEnd, Except.ok.injEq] at hp
        rw [← hp]
        exact le_refl y
      | _ => simp [lowerEnd] at hp) brakeRotor 0 brakeSec 10 5 20 rfl rfl rfl (by norm_num) (by norm_num) (by norm_num)
    (by norm_num [brakeRotor]) (Or.inl rfl)
  exact ⟨h.1 _ (by linarith [Real.pi_gt_three]) (by norm_num), h.2⟩

/-- **C32** (partial) The propeller-brake region is searched whenever the residual changes sign there and not in the first bracket.  Over
the reals, where the loss factor has a value at negative inflow angles; hence stated without losses.  Missing: losses, see
`brake_solutions_false`. -/
theorem brake_solutions_partial (R : Rotor ℝ) (pitch : ℝ) (x : Sec ℝ) (_ho : R.opts.tipLoss = false ∧ R.opts.hubLoss = false)
    (h1 : 0 < errFun R pitch x (1 / 1000000) * errFun R pitch x (Real.pi / 2))
    (h2 : errFun R pitch x (-Real.pi / 4) < 0) (h3 : 0 < errFun R pitch x (-(1 / 1000000))) (bq : RootFinder ℝ) (phi : ℝ)
    (hbq : bq (errFun R pitch x) (-Real.pi / 4) (-(1 / 1000000)) = .ok phi) :
    solvePhi bq (errFun R pitch x) = .ok (phi, false) := by
  unfold solvePhi
  simp only
  rw [(bracket_choice _).2.1 h1 h2 h3, hbq]

/-- The same section without losses, over the reals -/
noncomputable def brakeSecPlain : Sec ℝ :=
  ⟨10, 2 * Real.pi / 3, 0, ⟨fun a _ => (brakeLift a, 0), fun _ _ => 0, fun _ _ => 0, fun _ _ => 0, fun _ _ => 0⟩, 1, 10⟩

theorem brakeSecPlain_residual (phi : ℝ) (hs : Real.sin phi ≠ 0) (hc : Real.cos phi ≠ 0) :
    errFun demoRotor 0 brakeSecPlain phi = brakeResidual 1 phi := by
  have h : errFun demoRotor 0 brakeSecPlain phi =
      (inductionFactors 10 (2 * Real.pi / 3) 2 60 phi (brakeLift phi) 0 3 1 10 ⟨true, false, false, true⟩).fzero := by
    simp [errFun, runBEM, bemPasses, bemPass, relativeWind, demoRotor, brakeSecPlain]
  obtain ⟨-, -, h'⟩ := indOut_eq 10 (2 * Real.pi / 3) 2 60 phi (brakeLift phi) 0 3 1 10 ⟨true, false, false, true⟩
  rw [h, h']
  have hpi := Real.pi_ne_zero
  have hF : lossSpec ⟨true, false, false, true⟩ 3 10 2 60 phi = 1 := by simp [lossSpec]
  have hσ : ((3 : ℕ) : ℝ) * (2 * Real.pi / 3) / (2 * Real.pi * 10) = 1 / 10 := by
    push_cast
    field_simp
  have hk : kSpec ⟨true, false, false, true⟩ 3 10 (2 * Real.pi / 3) 2 60 phi (brakeLift phi) 0 =
      brakeLift phi * Real.cos phi / (40 * 1 * Real.sin phi ^ 2) := by
    simp only [kSpec, hF, hσ, cnSpec, if_true]
    ring
  have hkp : kpSpec ⟨true, false, false, true⟩ 3 10 (2 * Real.pi / 3) 2 60 phi (brakeLift phi) 0 =
      brakeLift phi / (40 * 1 * Real.cos phi) := by
    simp only [kpSpec, hF, hσ, ctSpec, if_true]
    field_simp
    ring
  rw [hk, hkp, hF]
  simp only [bemResidual, brakeResidual, if_true]
  rw [div_one, mul_one_div]

/-- Without losses the search does look into the propeller-brake region for this section. -/
example : bracket (errFun demoRotor 0 brakeSecPlain) = (-Real.pi / 4, -(1 / 1000000)) := by
  have hpi3 := Real.pi_gt_d2
  have hpi4 := Real.pi_lt_d2
  have hsin : ∀ x : ℝ, 0 < x → x < Real.pi → Real.sin x ≠ 0 := fun x h1 h2 => (Real.sin_pos_of_pos_of_lt_pi h1 h2).ne'
  have hcos : ∀ x : ℝ, -(Real.pi / 2) < x → x < Real.pi / 2 → Real.cos x ≠ 0 := fun x h1 h2 =>
    (Real.cos_pos_of_mem_Ioo ⟨h1, h2⟩).ne'
  have hright : 0 < errFun demoRotor 0 brakeSecPlain (Real.pi / 2) := by
    have h : errFun demoRotor 0 brakeSecPlain (Real.pi / 2) =
        (inductionFactors 10 (2 * Real.pi / 3) 2 60 (Real.pi / 2) (brakeLift (Real.pi / 2)) 0 3 1 10 ⟨true, false, false, true⟩).fzero := by
      simp [errFun, runBEM, bemPasses, bemPass, relativeWind, demoRotor, brakeSecPlain]
    rw [h]
    exact residual_right_angle _ _ _ _ _ _ _ _ _ _ (by norm_num) (by norm_num) (by norm_num) (by norm_num) (by positivity) le_rfl
  refine (bracket_choice _).2.1 (mul_pos ?_ hright) ?_ ?_
  · rw [brakeSecPlain_residual _ (hsin _ (by norm_num) (by linarith)) (hcos _ (by linarith) (by linarith))]
    exact brakeResidual_pos 1 _ (by norm_num) (by norm_num) (by norm_num) (by linarith)
  · rw [brakeSecPlain_residual _ (Real.sin_neg_of_neg_of_neg_pi_lt (by linarith) (by linarith)).ne
      (hcos _ (by linarith) (by linarith))]
    exact brakeResidual_lo 1 (by norm_num)
  · rw [brakeSecPlain_residual _ (Real.sin_neg_of_neg_of_neg_pi_lt (by norm_num) (by linarith)).ne
      (hcos _ (by linarith) (by linarith))]
    exact brakeResidual_hi 1 (by norm_num) le_rfl

end Verif
