import Verif.Model.Bem
import Verif.Props.Geometry
import Mathlib.Analysis.SpecialFunctions.Integrals.Basic
import Mathlib.MeasureTheory.Integral.IntervalIntegral.FundThmCalculus

/-!
# Integration of the distributed loads over the blade (C26)
-/

namespace Verif
open MeasureTheory

/-- `g` is the piecewise linear function through the points `(s i, f i)`, `i ≤ m`. -/
def PiecewiseLinear (m : ℕ) (s f : ℕ → ℝ) (g : ℝ → ℝ) : Prop :=
  (∀ i ≤ m, g (s i) = f i) ∧
  ∀ i < m, ∃ q, ∀ x ∈ Set.Icc (s i) (s (i + 1)), g x = f i + q * (x - s i)

/-- The piecewise linear interpolant exists when the abscissae increase strictly. -/
theorem piecewiseLinear_exists (m : ℕ) (s f : ℕ → ℝ) (hs : ∀ i < m, s i < s (i + 1)) :
    ∃ g, PiecewiseLinear m s f g := by
  induction m with
  | zero => exact ⟨fun _ => f 0, fun i hi => by rw [Nat.le_zero.mp hi], fun i hi => absurd hi (by omega)⟩
  | succ m ih =>
    obtain ⟨g, hg1, hg2⟩ := ih (fun i hi => hs i (by omega))
    have mono : ∀ i ≤ m, s i ≤ s m := by
      have aux : ∀ d i, i + d ≤ m → s i ≤ s (i + d) := by
        intro d
        induction d with
        | zero => intro i _; exact le_rfl
        | succ d ihd =>
          intro i hi
          have h1 := ihd i (by omega)
          have h2 := hs (i + d) (by omega)
          exact h1.trans h2.le
      intro i hi
      have := aux (m - i) i (by omega)
      rwa [Nat.add_sub_cancel' hi] at this
    have hm := hs m (by omega)
    refine ⟨fun x => if x ≤ s m then g x else f m + (f (m + 1) - f m) / (s (m + 1) - s m) * (x - s m), ?_, ?_⟩
    · intro i hi
      rcases Nat.lt_or_ge m i with h | h
      · have : i = m + 1 := by omega
        subst this
        have hne : s (m + 1) - s m ≠ 0 := by linarith
        simp only [not_le.mpr hm, if_false]
        field_simp
        ring
      · simp only [mono i h, if_true]
        exact hg1 i h
    · intro i hi
      rcases Nat.lt_or_ge i m with h | h
      · obtain ⟨q, hq⟩ := hg2 i h
        refine ⟨q, fun x hx => ?_⟩
        have hx' : x ≤ s m := le_trans hx.2 (mono (i + 1) h)
        simp only [hx', if_true]
        exact hq x hx
      · have : i = m := by omega
        subst this
        refine ⟨(f (i + 1) - f i) / (s (i + 1) - s i), fun x hx => ?_⟩
        by_cases hx' : x ≤ s i
        · have : x = s i := le_antisymm hx' hx.1
          subst this
          simp [hg1 i le_rfl]
        · simp [hx']

/-- The trapezoidal rule integrates the piecewise linear interpolant exactly. -/
theorem trapz_eq_integral (m : ℕ) (f s : ℕ → ℝ) (hs : ∀ i < m, s i ≤ s (i + 1)) (g : ℝ → ℝ)
    (hg : PiecewiseLinear m s f g) : trapz m f s = ∫ x in (s 0)..(s m), g x := by
  have key : ∀ i < m, IntervalIntegrable g volume (s i) (s (i + 1)) ∧
      ∫ x in (s i)..(s (i + 1)), g x = 1 / 2 * (f i + f (i + 1)) * (s (i + 1) - s i) := by
    intro i hi
    obtain ⟨q, hq⟩ := hg.2 i hi
    have hle := hs i hi
    have heq : Set.EqOn g (fun x => f i + q * (x - s i)) (Set.uIcc (s i) (s (i + 1))) := by
      intro x hx
      rw [Set.uIcc_of_le hle] at hx
      exact hq x hx
    have hci : IntervalIntegrable (fun x => f i + q * (x - s i)) volume (s i) (s (i + 1)) :=
      (by fun_prop : Continuous fun x => f i + q * (x - s i)).intervalIntegrable _ _
    refine ⟨hci.congr (fun x hx => (heq (Set.uIoc_subset_uIcc hx)).symm), ?_⟩
    rw [intervalIntegral.integral_congr heq]
    have hend : f (i + 1) = f i + q * (s (i + 1) - s i) := by
      rw [← hg.1 (i + 1) hi]
      exact hq _ ⟨hle, le_rfl⟩
    rw [hend]
    have hd : ∀ x ∈ Set.uIcc (s i) (s (i + 1)),
        HasDerivAt (fun x => f i * x + q * ((x - s i) ^ 2 / 2)) (f i + q * (x - s i)) x := by
      intro x _
      have h1 := ((hasDerivAt_id x).const_mul (f i)).add
        (((((hasDerivAt_id x).sub_const (s i)).pow 2).div_const 2).const_mul q)
      refine h1.congr_deriv ?_
      simp
    rw [intervalIntegral.integral_eq_sub_of_hasDerivAt hd hci]
    ring
  simp only [trapz, num_real]
  push_cast
  induction m with
  | zero => simp
  | succ m ih =>
    rw [Finset.sum_range_succ, ih (fun i hi => hs i (by omega))
      ⟨fun i hi => hg.1 i (by omega), fun i hi => hg.2 i (by omega)⟩ (fun i hi => key i (by omega)),
      ← (key m (by omega)).2]
    have hint : IntervalIntegrable g volume (s 0) (s m) := by
      have : ∀ k ≤ m, IntervalIntegrable g volume (s 0) (s k) := by
        intro k hk
        induction k with
        | zero => exact IntervalIntegrable.refl
        | succ k ihk => exact (ihk (by omega)).trans (key k (by omega)).1
      exact this m le_rfl
    rw [intervalIntegral.integral_add_adjacent_intervals hint (key m (by omega)).1]

/-- The blade with hub and tip added: arrays of `n + 2` values. -/
noncomputable def fullCurv (n : ℕ) (r pc ps : ℕ → ℝ) (precone Rhub Rtip pcTip psTip : ℝ) : CurvOut ℝ :=
  defineCurvature (n + 2) (padded n Rhub r Rtip) (padded n 0 pc pcTip) (padded n 0 ps psTip) precone

private theorem full_s_mono (n : ℕ) (r pc ps : ℕ → ℝ) (precone Rhub Rtip pcTip psTip : ℝ) (i : ℕ) :
    (fullCurv n r pc ps precone Rhub Rtip pcTip psTip).s i ≤ (fullCurv n r pc ps precone Rhub Rtip pcTip psTip).s (i + 1) := by
  have h := (pathLength_increments (n + 2) (padded n Rhub r Rtip) (padded n 0 pc pcTip) (padded n 0 ps psTip) precone).2 i
  have h2 : 0 ≤ V3dist (bladePoint (padded n Rhub r Rtip) (padded n 0 pc pcTip) (padded n 0 ps psTip) (i + 1))
      (bladePoint (padded n Rhub r Rtip) (padded n 0 pc pcTip) (padded n 0 ps psTip) i) := Real.sqrt_nonneg _
  simp only [fullCurv]
  linarith

/-- **C26** Each rotor quantity is the integral, over the arc length from hub to tip, of the piecewise linear function
through the nodal values; the loads vanish at the hub and the tip. -/
theorem thrustTorque_eq_integral (n : ℕ) (Np Tp r pc ps : ℕ → ℝ) (precone Rhub Rtip pcTip psTip : ℝ) :
    let c := fullCurv n r pc ps precone Rhub Rtip pcTip psTip
    let R := thrustTorque n Np Tp r pc ps precone Rhub Rtip pcTip psTip
    let N := fun i => if i = 0 ∨ i = n + 1 then 0 else Np (i - 1)
    let L := fun i => if i = 0 ∨ i = n + 1 then 0 else Tp (i - 1)
    let Integral := fun (node : ℕ → ℝ) (v : ℝ) => ∀ g, PiecewiseLinear (n + 1) c.s node g →
      v = ∫ x in (0:ℝ)..(c.s (n + 1)), g x
    Integral (fun i => N i * Real.cos (c.cone i)) R.T ∧
    Integral L R.Y ∧
    Integral (fun i => N i * Real.sin (c.cone i)) R.Z ∧
    Integral (fun i => L i * c.z_az i) R.Q ∧
    Integral (fun i => N i * c.z_az i) R.M := by
  intro c R N L Integral
  have hN : padded n 0 Np 0 = N := by
    funext i
    simp only [padded, N]
    by_cases h0 : i = 0 <;> by_cases h1 : i = n + 1 <;> simp [h0, h1]
  have hL : padded n 0 Tp 0 = L := by
    funext i
    simp only [padded, L]
    by_cases h0 : i = 0 <;> by_cases h1 : i = n + 1 <;> simp [h0, h1]
  have hmono : ∀ i < n + 1, c.s i ≤ c.s (i + 1) := fun i _ => full_s_mono n r pc ps precone Rhub Rtip pcTip psTip i
  have h0 : c.s 0 = 0 := rfl
  have main : ∀ node : ℕ → ℝ, Integral node (trapz (n + 1) node c.s) := by
    intro node g hg
    have := trapz_eq_integral (n + 1) node c.s hmono g hg
    rwa [h0] at this
  rw [← hN, ← hL]
  exact ⟨main _, main _, main _, main _, main _⟩

/-- The interpolant of the previous theorem exists for every blade with increasing radius. -/
theorem thrustTorque_interpolant_exists (n : ℕ) (r pc ps : ℕ → ℝ) (precone Rhub Rtip pcTip psTip : ℝ) (hn : 1 ≤ n)
    (h0 : Rhub < r 0) (hr : ∀ i, i + 1 < n → r i < r (i + 1)) (h1 : r (n - 1) < Rtip) (node : ℕ → ℝ) :
    ∃ g, PiecewiseLinear (n + 1) (fullCurv n r pc ps precone Rhub Rtip pcTip psTip).s node g := by
  apply piecewiseLinear_exists
  intro i hi
  apply (pathLength_ge (n + 2) (padded n Rhub r Rtip) (padded n 0 pc pcTip) (padded n 0 ps psTip) precone i).2
  simp only [padded]
  by_cases hi0 : i = 0
  · subst hi0
    have : ¬ (0 + 1 = n + 1) := by omega
    have h2 : n ≠ 0 := by omega
    simpa [this, h2] using h0
  · by_cases hin : i = n
    · subst hin
      have h2 : ¬ (i = i + 1) := by omega
      simp [hi0, h1]
    · have h2 : ¬ (i = n + 1) := by omega
      have := hr (i - 1) (by omega)
      have h4 : i - 1 + 1 = i := by omega
      rw [h4] at this
      simp [hi0, h2, hin, this]

private theorem padded_lin (n : ℕ) (f g : ℕ → ℝ) (a b : ℝ) (i : ℕ) :
    padded n 0 (fun j => a * f j + b * g j) 0 i = a * padded n 0 f 0 i + b * padded n 0 g 0 i := by
  simp only [padded]
  split_ifs <;> ring

private theorem trapz_lin (m : ℕ) (f g s : ℕ → ℝ) (a b : ℝ) :
    trapz m (fun i => a * f i + b * g i) s = a * trapz m f s + b * trapz m g s := by
  simp only [trapz, num_real, Finset.mul_sum, ← Finset.sum_add_distrib]
  apply Finset.sum_congr rfl
  intro i _
  ring

/-- **C26** The rotor quantities are linear in the distributed loads. -/
theorem thrustTorque_linear (n : ℕ) (N1 T1 N2 T2 r pc ps : ℕ → ℝ) (precone Rhub Rtip pcTip psTip a b : ℝ) :
    let R := fun N T => thrustTorque n N T r pc ps precone Rhub Rtip pcTip psTip
    let R12 := R (fun i => a * N1 i + b * N2 i) (fun i => a * T1 i + b * T2 i)
    R12.T = a * (R N1 T1).T + b * (R N2 T2).T ∧ R12.Y = a * (R N1 T1).Y + b * (R N2 T2).Y ∧
    R12.Z = a * (R N1 T1).Z + b * (R N2 T2).Z ∧ R12.Q = a * (R N1 T1).Q + b * (R N2 T2).Q ∧
    R12.M = a * (R N1 T1).M + b * (R N2 T2).M := by
  simp only [thrustTorque]
  have e : ∀ (f g w : ℕ → ℝ), (fun i => padded n 0 (fun j => a * f j + b * g j) 0 i * w i)
      = fun i => a * (padded n 0 f 0 i * w i) + b * (padded n 0 g 0 i * w i) := by
    intro f g w; funext i; rw [padded_lin]; ring
  have e2 : ∀ (f g : ℕ → ℝ), padded n 0 (fun j => a * f j + b * g j) 0
      = fun i => a * padded n 0 f 0 i + b * padded n 0 g 0 i := by
    intro f g; funext i; rw [padded_lin]
  refine ⟨?_, ?_, ?_, ?_, ?_⟩
  · rw [e, trapz_lin]
  · rw [e2, trapz_lin]
  · rw [e, trapz_lin]
  · rw [e, trapz_lin]
  · rw [e, trapz_lin]

/-- **C26** Zero loads give zero rotor quantities. -/
theorem thrustTorque_zero (n : ℕ) (r pc ps : ℕ → ℝ) (precone Rhub Rtip pcTip psTip : ℝ) :
    thrustTorque n (fun _ => 0) (fun _ => 0) r pc ps precone Rhub Rtip pcTip psTip = ⟨0, 0, 0, 0, 0⟩ := by
  have h := thrustTorque_linear n (fun _ => 0) (fun _ => 0) (fun _ => 0) (fun _ => 0) r pc ps precone Rhub Rtip pcTip psTip 0 0
  simp only [mul_zero, add_zero, zero_mul] at h
  obtain ⟨h1, h2, h3, h4, h5⟩ := h
  cases hR : thrustTorque n (fun _ => 0) (fun _ => 0) r pc ps precone Rhub Rtip pcTip psTip
  simp_all

/-- **C26** Nonnegative normal loads give nonnegative thrust when the local cone angles are within ±90°. -/
theorem thrust_nonneg (n : ℕ) (Np Tp r pc ps : ℕ → ℝ) (precone Rhub Rtip pcTip psTip : ℝ)
    (hN : ∀ i < n, 0 ≤ Np i)
    (hc : ∀ i < n + 2, |(fullCurv n r pc ps precone Rhub Rtip pcTip psTip).cone i| ≤ Real.pi / 2) :
    0 ≤ (thrustTorque n Np Tp r pc ps precone Rhub Rtip pcTip psTip).T := by
  simp only [thrustTorque, trapz, num_real]
  apply Finset.sum_nonneg
  intro i hi
  rw [Finset.mem_range] at hi
  have hpad : ∀ j < n + 2, 0 ≤ padded n 0 Np 0 j := by
    intro j hj
    simp only [padded]
    split_ifs
    · exact le_rfl
    · exact le_rfl
    · exact hN _ (by omega)
  have hcos : ∀ j < n + 2, 0 ≤ Real.cos ((fullCurv n r pc ps precone Rhub Rtip pcTip psTip).cone j) := by
    intro j hj
    have := abs_le.mp (hc j hj)
    exact Real.cos_nonneg_of_mem_Icc ⟨by linarith, this.2⟩
  have hs := full_s_mono n r pc ps precone Rhub Rtip pcTip psTip i
  have h1 := mul_nonneg (hpad i (by omega)) (hcos i (by omega))
  have h2 := mul_nonneg (hpad (i + 1) (by omega)) (hcos (i + 1) (by omega))
  simp only [fullCurv] at *
  refine mul_nonneg (mul_nonneg (by norm_num) (add_nonneg h1 h2)) (by linarith)

/-- Non-trivial instance: one station at mid-span of a straight blade from 1 to 3 with unit normal load: the triangular
load has thrust 1. -/
example : (thrustTorque 1 (fun _ => 1) (fun _ => 0) (fun _ => (2:ℝ)) (fun _ => 0) (fun _ => 0) 0 1 3 0 0).T = 1 := by
  have hcone : (defineCurvature 3 (padded 1 1 (fun _ => (2:ℝ)) 3) (padded 1 0 (fun _ => 0) 0) (padded 1 0 (fun _ => 0) 0) 0).cone 1 = 0 := by
    refine cone_of_straight_blade 3 (by norm_num) _ _ _ _ ⟨by linarith [Real.pi_pos], Real.pi_pos.le⟩ ?_ ?_ 1 (by norm_num)
    · intro i hi
      have : i = 0 ∨ i = 1 := by omega
      rcases this with rfl | rfl <;> norm_num [padded]
    · intro i hi
      simp [padded]
  simp only [thrustTorque, trapz, num_real, Finset.sum_range_succ, Finset.sum_range_zero, hcone]
  simp [padded, defineCurvature, pathLength, segLength, num_real]
  norm_num

end Verif
