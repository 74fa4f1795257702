import Verif.Model.CCBlade
import Verif.Lemmas.Interp
import Mathlib.Tactic.NormNum
import Mathlib.Tactic.Positivity

/-! # The constructor over the reals -/

namespace Verif

/-- Increasing stations, at least two. -/
def Increasing (n : ℕ) (r : ℕ → ℝ) : Prop := 2 ≤ n ∧ ∀ i j, i < j → j < n → r i < r j

/-- Fraction of the first segment at which the hub station is placed. -/
noncomputable def hubFrac (n : ℕ) (r : ℕ → ℝ) : ℝ :=
  min (1 / 100) ((r 1 - r 0) / (r (n - 1) - r 0) / 2) * ((r (n - 1) - r 0) / (r 1 - r 0))

/-- Fraction of the last segment at which the tip station is placed. -/
noncomputable def tipFrac (n : ℕ) (r : ℕ → ℝ) : ℝ :=
  (max (99 / 100) (((r (n - 2) - r 0) / (r (n - 1) - r 0) + 1) / 2) - (r (n - 2) - r 0) / (r (n - 1) - r 0))
    * ((r (n - 1) - r 0) / (r (n - 1) - r (n - 2)))

theorem hubFrac_bounds {n : ℕ} {r : ℕ → ℝ} (h : Increasing n r) : 0 < hubFrac n r ∧ hubFrac n r ≤ 1 / 2 := by
  obtain ⟨hn, hr⟩ := h
  have h01 : r 0 < r 1 := hr 0 1 (by omega) (by omega)
  have h0l : r 0 < r (n - 1) := hr 0 (n - 1) (by omega) (by omega)
  have a : 0 < r 1 - r 0 := by linarith
  have b : 0 < r (n - 1) - r 0 := by linarith
  unfold hubFrac
  constructor
  · have : (0 : ℝ) < min (1 / 100) ((r 1 - r 0) / (r (n - 1) - r 0) / 2) := lt_min (by norm_num) (by positivity)
    positivity
  · calc _ ≤ ((r 1 - r 0) / (r (n - 1) - r 0) / 2) * ((r (n - 1) - r 0) / (r 1 - r 0)) :=
          mul_le_mul_of_nonneg_right (min_le_right _ _) (by positivity)
      _ = 1 / 2 := by field_simp

theorem tipFrac_bounds {n : ℕ} {r : ℕ → ℝ} (h : Increasing n r) : 1 / 2 ≤ tipFrac n r ∧ tipFrac n r < 1 := by
  obtain ⟨hn, hr⟩ := h
  have h0l : r 0 < r (n - 1) := hr 0 (n - 1) (by omega) (by omega)
  have hml : r (n - 2) < r (n - 1) := hr (n - 2) (n - 1) (by omega) (by omega)
  have a : 0 < r (n - 1) - r (n - 2) := by linarith
  have b : 0 < r (n - 1) - r 0 := by linarith
  unfold tipFrac
  have e : (1 - (r (n - 2) - r 0) / (r (n - 1) - r 0)) * ((r (n - 1) - r 0) / (r (n - 1) - r (n - 2))) = 1 := by
    field_simp
    ring
  constructor
  · calc (1 / 2 : ℝ) = ((((r (n - 2) - r 0) / (r (n - 1) - r 0) + 1) / 2) - (r (n - 2) - r 0) / (r (n - 1) - r 0))
          * ((r (n - 1) - r 0) / (r (n - 1) - r (n - 2))) := by linear_combination (-1 / 2) * e
      _ ≤ _ := mul_le_mul_of_nonneg_right (sub_le_sub_right (le_max_right _ _) _) (by positivity)
  · have hm : max (99 / 100 : ℝ) (((r (n - 2) - r 0) / (r (n - 1) - r 0) + 1) / 2) < 1 := by
      apply max_lt (by norm_num)
      have : (r (n - 2) - r 0) / (r (n - 1) - r 0) < 1 := by rw [div_lt_one b]; linarith
      linarith
    exact lt_of_lt_of_eq (mul_lt_mul_of_pos_right (sub_lt_sub_right hm _) (by positivity)) e

theorem interp_hub {n : ℕ} {r : ℕ → ℝ} (h : Increasing n r) (f : ℕ → ℝ) :
    npInterp (min (1 / 100) ((r 1 - r 0) / (r (n - 1) - r 0) / 2)) (arr n fun i => ((r i - r 0) / (r (n - 1) - r 0), f i))
      = .ok (f 0 + hubFrac n r * (f 1 - f 0)) := by
  obtain ⟨hb1, hb2⟩ := hubFrac_bounds h
  obtain ⟨hn, hr⟩ := h
  have h01 : r 0 < r 1 := hr 0 1 (by omega) (by omega)
  have h0l : r 0 < r (n - 1) := hr 0 (n - 1) (by omega) (by omega)
  have a : 0 < r 1 - r 0 := by linarith
  have b : 0 < r (n - 1) - r 0 := by linarith
  have hpos : (0 : ℝ) < min (1 / 100) ((r 1 - r 0) / (r (n - 1) - r 0) / 2) := lt_min (by norm_num) (by positivity)
  rw [npInterp_segment n _ _ 0 (by omega)]
  · simp only [zero_add, sub_self, zero_div, sub_zero, hubFrac]
    congr 1
    field_simp
    ring
  · intro i hi
    obtain rfl : i = 0 := by omega
    simpa using hpos.le
  · intro i hi0 hi
    have hi1 : r 1 ≤ r i := by
      rcases Nat.lt_or_eq_of_le (show 1 ≤ i by omega) with h | rfl
      · exact (hr 1 i h hi).le
      · exact le_rfl
    calc _ ≤ (r 1 - r 0) / (r (n - 1) - r 0) / 2 := min_le_right _ _
      _ < (r 1 - r 0) / (r (n - 1) - r 0) := half_lt_self (by positivity)
      _ ≤ _ := div_le_div_of_nonneg_right (by linarith) b.le

theorem interp_tip {n : ℕ} {r : ℕ → ℝ} (h : Increasing n r) (f : ℕ → ℝ) :
    npInterp (max (99 / 100) (((r (n - 2) - r 0) / (r (n - 1) - r 0) + 1) / 2))
        (arr n fun i => ((r i - r 0) / (r (n - 1) - r 0), f i))
      = .ok (f (n - 2) + tipFrac n r * (f (n - 1) - f (n - 2))) := by
  obtain ⟨hn, hr⟩ := h
  have h0l : r 0 < r (n - 1) := hr 0 (n - 1) (by omega) (by omega)
  have hml : r (n - 2) < r (n - 1) := hr (n - 2) (n - 1) (by omega) (by omega)
  have a : 0 < r (n - 1) - r (n - 2) := by linarith
  have b : 0 < r (n - 1) - r 0 := by linarith
  have hlt : (r (n - 2) - r 0) / (r (n - 1) - r 0) < 1 := by rw [div_lt_one b]; linarith
  rw [npInterp_segment n _ _ (n - 2) (by omega)]
  · simp only [show n - 2 + 1 = n - 1 by omega, tipFrac]
    rw [← sub_div, show r (n - 1) - r 0 - (r (n - 2) - r 0) = r (n - 1) - r (n - 2) by ring]
    generalize max (99 / 100) (((r (n - 2) - r 0) / (r (n - 1) - r 0) + 1) / 2) = m
    congr 1
    field_simp
    ring
  · intro i hi
    have : (r i - r 0) / (r (n - 1) - r 0) ≤ (r (n - 2) - r 0) / (r (n - 1) - r 0) := by
      rcases Nat.lt_or_eq_of_le hi with hlt | rfl
      · have := hr i (n - 2) hlt (by omega)
        exact div_le_div_of_nonneg_right (by linarith) b.le
      · exact le_refl _
    simp only
    calc _ ≤ _ := this
      _ ≤ ((r (n - 2) - r 0) / (r (n - 1) - r 0) + 1) / 2 := by linarith
      _ ≤ _ := le_max_right _ _
  · intro i hi1 hi2
    obtain rfl : i = n - 1 := by omega
    rw [div_self b.ne']
    exact max_lt (by norm_num) (by linarith)

/-- The stored arrays in closed form. -/
theorem build_arrays (x : CCArgs ℝ) (h : Increasing x.n x.r) :
    ∃ R, x.build = .ok R ∧ R.n = x.n ∧ R.Rhub = x.Rhub ∧ R.Rtip = x.Rtip ∧
      R.r = (fun i => if i = x.n - 1 ∧ x.Rtip = x.r (x.n - 1)
          then x.r (x.n - 2) + tipFrac x.n x.r * (x.r (x.n - 1) - x.r (x.n - 2))
        else if i = 0 ∧ x.Rhub = x.r 0 then x.r 0 + hubFrac x.n x.r * (x.r 1 - x.r 0) else x.r i) ∧
      (∀ c, x.precurve = some c → R.precurveTip = x.precurveTip ∧
        R.precurve = fun i => if i = x.n - 1 ∧ x.precurveTip = c (x.n - 1)
          then c (x.n - 2) + tipFrac x.n x.r * (c (x.n - 1) - c (x.n - 2)) else c i) ∧
      (∀ c, x.presweep = some c → R.presweepTip = x.presweepTip ∧
        R.presweep = fun i => if i = x.n - 1 ∧ x.presweepTip = c (x.n - 1)
          then c (x.n - 2) + tipFrac x.n x.r * (c (x.n - 1) - c (x.n - 2)) else c i) ∧
      (x.precurve = none → R.precurveTip = 0 ∧ R.precurve = fun _ => 0) ∧
      (x.presweep = none → R.presweepTip = 0 ∧ R.presweep = fun _ => 0) := by
  have hn := h.1
  have h0l : x.r 0 < x.r (x.n - 1) := h.2 0 (x.n - 1) (by omega) (by omega)
  have b : x.r (x.n - 1) - x.r 0 ≠ 0 := by linarith
  unfold CCArgs.build
  simp only [show ¬ x.n = 0 by omega, show ¬ x.n = 1 by omega, if_false]
  have e1 : npMinimum (Num.nat 1 / Num.nat 100 : ℝ) (((x.r 0 - x.r 0) / (x.r (x.n - 1) - x.r 0)
      + (x.r 1 - x.r 0) / (x.r (x.n - 1) - x.r 0)) / Num.nat 2)
      = min (1 / 100) ((x.r 1 - x.r 0) / (x.r (x.n - 1) - x.r 0) / 2) := by
    simp only [npMinimum, num_real, sub_self, zero_div, zero_add, Bool.false_eq_true, if_false, min_def]
    push_cast
    rfl
  have e2 : npMaximum (Num.nat 99 / Num.nat 100 : ℝ) (((x.r (x.n - 2) - x.r 0) / (x.r (x.n - 1) - x.r 0)
      + (x.r (x.n - 1) - x.r 0) / (x.r (x.n - 1) - x.r 0)) / Num.nat 2)
      = max (99 / 100) (((x.r (x.n - 2) - x.r 0) / (x.r (x.n - 1) - x.r 0) + 1) / 2) := by
    simp only [npMaximum, num_real, div_self b, Bool.false_eq_true, if_false, max_def]
    push_cast
    split_ifs with h1 h2 h2
    · exact le_antisymm h2 h1
    · rfl
    · rfl
    · exact absurd (le_of_not_ge h1) h2
  rw [e1, e2, interp_hub h, interp_tip h, interp_tip h, interp_tip h]
  simp only [bind, Except.bind, pure, Except.pure]
  refine ⟨_, rfl, rfl, rfl, rfl, ?_, ?_, ?_, ?_, ?_⟩
  · funext i
    simp only [num_real, decide_eq_true_eq]
    by_cases ht : x.Rtip = x.r (x.n - 1) <;> by_cases hh : x.Rhub = x.r 0 <;> simp [ht, hh, setAt]
  · intro c hc
    refine ⟨by simp [hc], ?_⟩
    funext i
    simp only [hc, Option.isNone_some, Option.getD_some, num_real, Bool.false_eq_true, if_false]
    by_cases ht : x.precurveTip = c (x.n - 1) <;> simp [ht, setAt]
  · intro c hc
    refine ⟨by simp [hc], ?_⟩
    funext i
    simp only [hc, Option.isNone_some, Option.getD_some, num_real, Bool.false_eq_true, if_false]
    by_cases ht : x.presweepTip = c (x.n - 1) <;> simp [ht, setAt]
  · intro hc
    refine ⟨by simp [hc], ?_⟩
    funext i
    simp [hc, setAt]
  · intro hc
    refine ⟨by simp [hc], ?_⟩
    funext i
    simp [hc, setAt]

end Verif
