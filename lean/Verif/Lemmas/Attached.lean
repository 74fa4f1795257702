import Verif.Lemmas.Bracket
import Mathlib.Topology.Order.IntermediateValue
import Mathlib.Analysis.Calculus.Deriv.MeanValue
import Mathlib.Analysis.SpecialFunctions.Log.Deriv
import Mathlib.Analysis.SpecialFunctions.Trigonometric.ArctanDeriv

/-!
# Monotonicity of the momentum side of the residual equation

Auxiliary inequalities for the section theorem of `Verif.Props.Attached`.
-/

namespace Verif

open Real

/-- Buhl's branch of `1/(1-a)`. -/
noncomputable def buhlWake (F k : ℝ) : ℝ := √(2 * F * k - (4 / 3 - F) * F) + 5 / 3 - F

/-- `1/(1-a)` as a function of the loss factor and of `k`. -/
noncomputable def wakeOf (F k : ℝ) : ℝ := if k ≤ 2 / 3 then 1 + k else buhlWake F k

theorem buhlWake_switch {F : ℝ} (hF : 0 < F) : buhlWake F (2 / 3) = 5 / 3 := by
  unfold buhlWake
  rw [show 2 * F * (2 / 3) - (4 / 3 - F) * F = F ^ 2 by ring, Real.sqrt_sq hF.le]
  ring

/-- The code's value away from `k = -1` and from the guard. -/
theorem inv_axial_wake {phi k F : ℝ} (hp : 0 < phi) (hF : 0 < F) (hk : k ≠ -1)
    (hg : 2 / 3 < k → 1 / 1000000 ≤ |2 * F * k - (25 / 9 - 2 * F)|) : 1 / (1 - axialInduction phi k F) = wakeOf F k := by
  unfold wakeOf
  split_ifs with h
  · exact inv_axial_momentum hp h hk
  · push Not at h
    rw [axial_buhl hp hF h (by rw [buhlG3_real]; exact hg h), buhlG2_real, sub_sub_cancel, one_div_one_div, buhlWake]
    ring

private theorem radicand {F k : ℝ} (hF : 0 < F) (hk : 2 / 3 ≤ k) : F ^ 2 ≤ 2 * F * k - (4 / 3 - F) * F := by
  nlinarith [mul_nonneg hF.le (sub_nonneg.mpr hk)]

private theorem le_root {F k : ℝ} (hF : 0 < F) (hk : 2 / 3 ≤ k) : F ≤ √(2 * F * k - (4 / 3 - F) * F) :=
  Real.le_sqrt_of_sq_le (radicand hF hk)

theorem buhlWake_ge {F k : ℝ} (hF : 0 < F) (hk : 2 / 3 ≤ k) : 5 / 3 ≤ buhlWake F k := by
  unfold buhlWake
  linarith [le_root hF hk]

theorem wakeOf_mono {F k1 k2 : ℝ} (hF : 0 < F) (h : k1 ≤ k2) : wakeOf F k1 ≤ wakeOf F k2 := by
  unfold wakeOf
  split_ifs with h1 h2 h2
  · linarith
  · linarith [buhlWake_ge hF (not_le.mp h2).le]
  · linarith
  · unfold buhlWake
    have : √(2 * F * k1 - (4 / 3 - F) * F) ≤ √(2 * F * k2 - (4 / 3 - F) * F) := by
      apply Real.sqrt_le_sqrt
      nlinarith
    linarith

/-- The same blade force over a smaller annulus. -/
theorem wakeOf_loss {F1 F2 k1 k2 : ℝ} (h2 : 0 < F2) (h : F2 ≤ F1) (hk : 0 ≤ k1) (he : F1 * k1 = F2 * k2) :
    wakeOf F1 k1 ≤ wakeOf F2 k2 := by
  have h1 : 0 < F1 := by linarith
  have hk12 : k1 ≤ k2 := by
    by_contra hc
    push Not at hc
    nlinarith
  unfold wakeOf
  split_ifs with a1 a2 a2
  · linarith
  · linarith [buhlWake_ge h2 (not_le.mp a2).le]
  · linarith
  · push Not at a1 a2
    have e1 := le_root h1 a1.le
    have e2 := le_root h2 a2.le
    have s1 := Real.sq_sqrt (le_trans (sq_nonneg F1) (radicand h1 a1.le))
    have s2 := Real.sq_sqrt (le_trans (sq_nonneg F2) (radicand h2 a2.le))
    unfold buhlWake
    generalize √(2 * F1 * k1 - (4 / 3 - F1) * F1) = x at *
    generalize √(2 * F2 * k2 - (4 / 3 - F2) * F2) = y at *
    have hd : (x - y) * (x + y) = (F1 - F2) * (F1 + F2 - 4 / 3) := by
      have : (x - y) * (x + y) = x ^ 2 - y ^ 2 := by ring
      rw [this, s1, s2]
      linear_combination 2 * he
    have hle : x - y ≤ F1 - F2 := by
      by_contra hc
      push Not at hc
      have hxy : F1 + F2 ≤ x + y := by linarith
      have hpos : 0 < x + y := by linarith
      have := mul_lt_mul_of_pos_right hc hpos
      nlinarith [mul_nonneg (sub_nonneg.mpr h) (sub_nonneg.mpr hxy)]
    linarith

/-- `k` of a blade force `A` at the inflow angle with sine `s` and cosine `c`. -/
noncomputable def forceK (F A phi : ℝ) : ℝ := A * cos phi / (F * sin phi ^ 2)

section
variable {F A p q : ℝ}

private theorem trig (hp : 0 < p) (hpq : p < q) (hq : q < π / 2) :
    0 < sin p ∧ sin p < sin q ∧ 0 < cos q ∧ cos q < cos p := by
  refine ⟨sin_pos_of_pos_of_lt_pi hp (by linarith), ?_, cos_pos_of_mem_Ioo ⟨by linarith, hq⟩, ?_⟩
  · exact sin_lt_sin_of_lt_of_le_pi_div_two (by linarith) hq.le hpq
  · exact cos_lt_cos_of_nonneg_of_le_pi_div_two hp.le hq.le hpq

theorem forceK_anti (hF : 0 < F) (hA : 0 ≤ A) (hp : 0 < p) (hpq : p ≤ q) (hq : q < π / 2) : forceK F A q ≤ forceK F A p := by
  rcases hpq.eq_or_lt with rfl | hpq
  · exact le_rfl
  obtain ⟨h1, h2, h3, h4⟩ := trig hp hpq hq
  have h5 : 0 ≤ A * cos p := mul_nonneg hA (h3.trans h4).le
  unfold forceK
  gcongr

private theorem momentum_piece (hF : 0 < F) (hA : 0 ≤ A) (hp : 0 < p) (hpq : p < q) (hq : q < π / 2) (hk : forceK F A p ≤ 2 / 3) :
    tan p * (1 + forceK F A p) < tan q * (1 + forceK F A q) := by
  obtain ⟨h1, h2, h3, h4⟩ := trig hp hpq hq
  have hcp : 0 < cos p := h3.trans h4
  have hsq : 0 < sin q := h1.trans h2
  have e : ∀ x, 0 < sin x → 0 < cos x → tan x * (1 + forceK F A x) = sin x / cos x + A / F / sin x := by
    intro x hs hc
    rw [tan_eq_sin_div_cos, forceK]
    field_simp
  rw [e p h1 hcp, e q hsq h3]
  unfold forceK at hk
  rw [div_le_iff₀ (by positivity)] at hk
  have hG : A / F * cos p ≤ 2 / 3 * sin p ^ 2 := by
    rw [div_mul_eq_mul_div, div_le_iff₀ hF]
    linarith
  have hG0 : 0 ≤ A / F := by positivity
  generalize A / F = G at *
  have l1 : (sin q - sin p) / cos p ≤ sin q / cos q - sin p / cos p := by
    rw [sub_div]
    have : sin q / cos p ≤ sin q / cos q := by gcongr
    linarith
  have l2 : G / sin p - G / sin q = G * (sin q - sin p) / (sin p * sin q) := by field_simp
  have l3 : G * (sin q - sin p) / (sin p * sin q) < (sin q - sin p) / cos p := by
    rw [div_lt_div_iff₀ (by positivity) hcp]
    have hd : 0 < sin q - sin p := by linarith
    have : G * cos p < sin p * sin q := by nlinarith
    nlinarith
  linarith

private theorem buhl_piece (hF : 0 < F) (hF1 : F ≤ 1) (hA : 0 ≤ A) (hp : 0 < p) (hpq : p < q) (hq : q < π / 2) (hk : 2 / 3 ≤ forceK F A q) :
    tan p * buhlWake F (forceK F A p) < tan q * buhlWake F (forceK F A q) := by
  obtain ⟨h1, h2, h3, h4⟩ := trig hp hpq hq
  have hcp : 0 < cos p := h3.trans h4
  have hsq : 0 < sin q := h1.trans h2
  have hkp := hk.trans (forceK_anti hF hA hp hpq.le hq)
  have htan : tan p < tan q := tan_lt_tan_of_nonneg_of_lt_pi_div_two hp.le hq hpq
  have ht : 0 < tan p := tan_pos_of_pos_of_lt_pi_div_two hp (by linarith)
  have e : ∀ x, 0 < sin x → 0 < cos x → 0 < tan x → 2 / 3 ≤ forceK F A x → ∃ y, tan x * buhlWake F (forceK F A x) = y + tan x * (5 / 3 - F) ∧
      F * tan x ≤ y ∧ y ^ 2 = 2 * A / cos x - (4 / 3 - F) * F * tan x ^ 2 := by
    intro x hs hc hx hkx
    refine ⟨tan x * √(2 * F * forceK F A x - (4 / 3 - F) * F), by unfold buhlWake; ring, ?_, ?_⟩
    · rw [mul_comm]
      exact mul_le_mul_of_nonneg_left (le_root hF hkx) hx.le
    · rw [mul_pow, Real.sq_sqrt (le_trans (sq_nonneg F) (radicand hF hkx)), mul_sub]
      congr 1
      · rw [tan_eq_sin_div_cos, forceK]
        field_simp
      · ring
  obtain ⟨x, ex, lx, sx⟩ := e p h1 hcp ht hkp
  obtain ⟨y, ey, ly, sy⟩ := e q hsq h3 (ht.trans htan) hk
  rw [ex, ey]
  have hA' : 2 * A / cos p ≤ 2 * A / cos q := by gcongr
  generalize tan p = t at *
  generalize tan q = u at *
  have hd : (x - y) * (x + y) ≤ (4 / 3 - F) * F * (u ^ 2 - t ^ 2) := by
    have : (x - y) * (x + y) = x ^ 2 - y ^ 2 := by ring
    rw [this, sx, sy]
    linarith
  have hxy : F * (t + u) ≤ x + y := by linarith
  have hpos : 0 < F * (t + u) := mul_pos hF (by linarith)
  by_contra hc
  push Not at hc
  have hc' : (u - t) * (5 / 3 - F) ≤ x - y := by linarith
  have h0 : 0 ≤ (u - t) * (5 / 3 - F) := mul_nonneg (by linarith) (by linarith)
  have m1 : (u - t) * (5 / 3 - F) * (F * (t + u)) ≤ (x - y) * (x + y) :=
    mul_le_mul hc' hxy hpos.le (h0.trans hc')
  have : 0 < (u - t) * (F * (t + u)) := mul_pos (by linarith) hpos
  nlinarith

/-- A constant blade force needs a faster stream at a larger inflow angle. -/
theorem wakeOf_angle (hF : 0 < F) (hF1 : F ≤ 1) (hA : 0 ≤ A) (hp : 0 < p) (hpq : p < q) (hq : q < π / 2) :
    tan p * wakeOf F (forceK F A p) < tan q * wakeOf F (forceK F A q) := by
  have hanti := forceK_anti hF hA hp hpq.le hq
  by_cases h1 : forceK F A p ≤ 2 / 3
  · rw [wakeOf, wakeOf, if_pos h1, if_pos (hanti.trans h1)]
    exact momentum_piece hF hA hp hpq hq h1
  by_cases h2 : forceK F A q ≤ 2 / 3
  · have hcont : ContinuousOn (forceK F A) (Set.Icc p q) := by
      intro x hx
      have : sin x ≠ 0 := (sin_pos_of_pos_of_lt_pi (by linarith [hx.1]) (by linarith [hx.2])).ne'
      unfold forceK
      apply ContinuousAt.continuousWithinAt
      fun_prop (disch := positivity)
    obtain ⟨m, hm, em⟩ := intermediate_value_Icc' hpq.le hcont ⟨h2, (not_le.mp h1).le⟩
    have hpm : p < m := lt_of_le_of_ne hm.1 fun h => h1 (by rw [h, em])
    have b := buhl_piece hF hF1 hA hp hpm (lt_of_le_of_lt hm.2 hq) em.ge
    rw [wakeOf, wakeOf, if_neg h1, if_pos h2]
    rw [em, buhlWake_switch hF] at b
    rcases hm.2.eq_or_lt with rfl | hmq
    · rw [em]
      linarith
    · have c := momentum_piece hF hA (hp.trans hpm) hmq hq em.le
      rw [em] at c
      linarith
  · rw [wakeOf, wakeOf, if_neg h1, if_neg h2]
    exact buhl_piece hF hF1 hA hp hpq hq (not_le.mp h2).le

/-- The momentum side for blade forces and losses that grow with the inflow angle. -/
theorem wakeOf_section {F1 F2 A1 A2 : ℝ} (h2 : 0 < F2) (h21 : F2 ≤ F1) (hF1 : F1 ≤ 1) (h12 : A1 ≤ A2) (hA : 0 ≤ A2) (hp : 0 < p)
    (hpq : p < q) (hq : q < π / 2) : tan p * wakeOf F1 (forceK F1 A1 p) < tan q * wakeOf F2 (forceK F2 A2 q) := by
  obtain ⟨t1, t2, t3, t4⟩ := trig hp hpq hq
  have h1 : 0 < F1 := by linarith
  have hcp : 0 < cos p := t3.trans t4
  have hsq : 0 < sin q := t1.trans t2
  have hp' : 0 < tan p := tan_pos_of_pos_of_lt_pi_div_two hp (by linarith)
  have hq' : 0 < tan q := tan_pos_of_pos_of_lt_pi_div_two (hp.trans hpq) hq
  have kmono : ∀ {F x A A' : ℝ}, 0 < F → 0 < cos x → A ≤ A' → forceK F A x ≤ forceK F A' x := by
    intro F x A A' hF hc h
    unfold forceK
    have : 0 < cos x := hc
    gcongr
  calc tan p * wakeOf F1 (forceK F1 A1 p) ≤ tan p * wakeOf F1 (forceK F1 (max A1 0) p) :=
        mul_le_mul_of_nonneg_left (wakeOf_mono h1 (kmono h1 hcp (le_max_left _ _))) hp'.le
    _ ≤ tan p * wakeOf F2 (forceK F2 (max A1 0) p) := by
        refine mul_le_mul_of_nonneg_left (wakeOf_loss h2 h21 ?_ ?_) hp'.le
        · unfold forceK
          have := le_max_right A1 0
          positivity
        · unfold forceK
          field_simp
    _ < tan q * wakeOf F2 (forceK F2 (max A1 0) q) := wakeOf_angle h2 (h21.trans hF1) (le_max_right _ _) hp hpq hq
    _ ≤ tan q * wakeOf F2 (forceK F2 A2 q) :=
        mul_le_mul_of_nonneg_left (wakeOf_mono h2 (kmono h2 t3 (max_le h12 hA))) hq'.le

end

/-! ## Prandtl's factor as a function of the inflow angle -/

private theorem log_cos_bound {y : ℝ} (h0 : 0 ≤ y) (h1 : y < π / 2) : 0 ≤ y * tan y + 2 * log (cos y) := by
  have hc : ∀ z ∈ Set.Ico 0 (π / 2), 0 < cos z := fun z hz => cos_pos_of_mem_Ioo ⟨by linarith [hz.1], hz.2⟩
  have hd : ∀ z ∈ Set.Ico 0 (π / 2), HasDerivAt (fun z => z * tan z + 2 * log (cos z)) (z / cos z ^ 2 - tan z) z := by
    intro z hz
    have h := hc z hz
    have := ((hasDerivAt_id' z).mul (hasDerivAt_tan h.ne')).add (((hasDerivAt_cos z).log h.ne').const_mul 2)
    refine this.congr_deriv ?_
    rw [tan_eq_sin_div_cos]
    field_simp
    ring
  have hm : MonotoneOn (fun z => z * tan z + 2 * log (cos z)) (Set.Ico 0 (π / 2)) := by
    refine monotoneOn_of_deriv_nonneg (convex_Ico _ _) (fun z hz => (hd z hz).continuousAt.continuousWithinAt)
      (fun z hz => (hd z (interior_subset hz)).differentiableAt.differentiableWithinAt) fun z hz => ?_
    have hz' := interior_subset hz
    have h := hc z hz'
    rw [(hd z hz').deriv, tan_eq_sin_div_cos, div_sub_div _ _ (by positivity) h.ne']
    have : sin z * cos z ≤ z := by
      nlinarith [sin_le hz'.1, cos_le_one z, sin_nonneg_of_nonneg_of_le_pi hz'.1 (by linarith [hz'.2, pi_pos])]
    apply div_nonneg _ (by positivity)
    nlinarith
  have := hm (Set.left_mem_Ico.mpr (by linarith [pi_pos])) ⟨h0, h1⟩ h0
  simpa using this

private theorem log_cos_ratio : MonotoneOn (fun y => -log (cos y) / y ^ 2) (Set.Ioo 0 (π / 2)) := by
  have hd : ∀ z ∈ Set.Ioo 0 (π / 2), HasDerivAt (fun y => -log (cos y) / y ^ 2)
      ((tan z * z ^ 2 - -log (cos z) * (2 * z)) / (z ^ 2) ^ 2) z := by
    intro z hz
    have h : 0 < cos z := cos_pos_of_mem_Ioo ⟨by linarith [hz.1, pi_pos], hz.2⟩
    have := (((hasDerivAt_cos z).log h.ne').neg).div (hasDerivAt_pow 2 z) (by have := hz.1; positivity)
    refine this.congr_deriv ?_
    simp only [Pi.neg_apply]
    rw [tan_eq_sin_div_cos]
    push_cast
    field_simp
  refine monotoneOn_of_deriv_nonneg (convex_Ioo _ _) (fun z hz => (hd z hz).continuousAt.continuousWithinAt)
    (fun z hz => (hd z (interior_subset hz)).differentiableAt.differentiableWithinAt) fun z hz => ?_
  have hz' := interior_subset hz
  rw [(hd z hz').deriv]
  apply div_nonneg _ (by positivity)
  nlinarith [log_cos_bound hz'.1.le hz'.2, hz'.1]

private theorem arccos_exp {x : ℝ} (hx : 0 < x) : arccos (exp (-x)) ∈ Set.Ioo 0 (π / 2) ∧ -log (cos (arccos (exp (-x)))) = x := by
  have h1 : exp (-x) < 1 := by rw [exp_lt_one_iff]; linarith
  have h0 := exp_pos (-x)
  refine ⟨⟨arccos_pos.mpr h1, arccos_lt_pi_div_two.mpr h0⟩, ?_⟩
  rw [cos_arccos (by linarith) h1.le, log_exp, neg_neg]

/-- The square of the factor falls with the distance to the edge, measured in that distance. -/
private theorem arccos_exp_sq {x y : ℝ} (hx : 0 < x) (h : x ≤ y) : arccos (exp (-y)) ^ 2 * x ≤ arccos (exp (-x)) ^ 2 * y := by
  obtain ⟨m1, e1⟩ := arccos_exp hx
  obtain ⟨m2, e2⟩ := arccos_exp (hx.trans_le h)
  have hle : arccos (exp (-x)) ≤ arccos (exp (-y)) := arccos_le_arccos (exp_le_exp.mpr (by linarith))
  have := log_cos_ratio m1 m2 hle
  simp only [e1, e2] at this
  rw [div_le_div_iff₀ (by have := m1.1; positivity) (by have := m2.1; positivity)] at this
  linarith

section
variable {B : ℕ} {d R p q : ℝ}

private theorem edge (hB : 0 < B) (hd : 0 < d) (hR : 0 < R) (hp : 0 < p) (hpq : p ≤ q) (hq : q ≤ π / 2) :
    0 < sin p ∧ sin p ≤ sin q ∧ 0 < (B / 2 * d / R : ℝ) := by
  have hB' : (0 : ℝ) < B := by exact_mod_cast hB
  refine ⟨sin_pos_of_pos_of_lt_pi hp (by linarith [pi_pos]), sin_le_sin_of_le_of_le_pi_div_two (by linarith) hq hpq, by positivity⟩

theorem prandtl_factor_anti (hB : 0 < B) (hd : 0 < d) (hR : 0 < R) (hp : 0 < p) (hpq : p ≤ q) (hq : q ≤ π / 2) :
    prandtl B d R q ≤ prandtl B d R p := by
  obtain ⟨h1, h2, h3⟩ := edge hB hd hR hp hpq hq
  unfold prandtl
  have : (B / 2 * d / (R * sin q) : ℝ) ≤ B / 2 * d / (R * sin p) := by gcongr
  have := pi_pos
  gcongr

theorem prandtl_sq (hB : 0 < B) (hd : 0 < d) (hR : 0 < R) (hp : 0 < p) (hpq : p ≤ q) (hq : q ≤ π / 2) :
    prandtl B d R p ^ 2 * sin p ≤ prandtl B d R q ^ 2 * sin q := by
  obtain ⟨h1, h2, h3⟩ := edge hB hd hR hp hpq hq
  have hsq := h1.trans_le h2
  have e : ∀ x, (B / 2 * d / (R * sin x) : ℝ) = B / 2 * d / R / sin x := fun x => by rw [div_div]
  unfold prandtl
  rw [e, e]
  generalize (B / 2 * d / R : ℝ) = Q at *
  have key := arccos_exp_sq (x := Q / sin q) (y := Q / sin p) (by positivity) (by gcongr)
  rw [← mul_div_assoc, ← mul_div_assoc, div_le_div_iff₀ hsq h1] at key
  have key' : arccos (exp (-(Q / sin p))) ^ 2 * sin p ≤ arccos (exp (-(Q / sin q))) ^ 2 * sin q := by nlinarith
  rw [mul_pow, mul_pow, mul_assoc, mul_assoc]
  exact mul_le_mul_of_nonneg_left key' (by positivity)

end

section
variable {o : BemOpts} {B : ℕ} {r Rhub Rtip p q : ℝ}

theorem prandtl_factor_pos (hB : 0 < B) {d R p : ℝ} (hd : 0 < d) (hR : 0 < R) (hp : 0 < p) (hq : p ≤ π / 2) : 0 < prandtl B d R p := by
  obtain ⟨h1, -, h3⟩ := edge hB hd hR hp le_rfl hq
  unfold prandtl
  have := pi_pos
  refine mul_pos (by positivity) (arccos_pos.mpr ?_)
  rw [exp_lt_one_iff, ← div_div]
  linarith [div_pos h3 h1]

theorem lossSpec_anti (hB : 0 < B) (hRhub : 0 < Rhub) (h1 : Rhub < r) (h2 : r < Rtip) (hp : 0 < p) (hpq : p ≤ q) (hq : q ≤ π / 2) :
    lossSpec o B r Rhub Rtip q ≤ lossSpec o B r Rhub Rtip p := by
  have hr : 0 < r := hRhub.trans h1
  have t := prandtl_factor_anti (B := B) hB (sub_pos.mpr h2) hr hp hpq hq
  have u := prandtl_factor_anti (B := B) hB (sub_pos.mpr h1) hRhub hp hpq hq
  have a := prandtl_factor_pos (B := B) hB (sub_pos.mpr h2) hr hp (hpq.trans hq)
  have b := prandtl_factor_pos (B := B) hB (sub_pos.mpr h1) hRhub (hp.trans_le hpq) hq
  unfold lossSpec
  split_ifs <;> try simp only [one_mul, mul_one]
  all_goals first | exact le_rfl | assumption | exact mul_le_mul t u b.le a.le

/-- The losses fall more slowly than the sine of the inflow angle grows. -/
theorem lossSpec_sin (hB : 0 < B) (hRhub : 0 < Rhub) (h1 : Rhub < r) (h2 : r < Rtip) (hp : 0 < p) (hpq : p ≤ q) (hq : q ≤ π / 2) :
    lossSpec o B r Rhub Rtip p * sin p ≤ lossSpec o B r Rhub Rtip q * sin q := by
  have hr : 0 < r := hRhub.trans h1
  have hs : 0 < sin p := sin_pos_of_pos_of_lt_pi hp (by linarith [pi_pos])
  have hss : sin p ≤ sin q := sin_le_sin_of_le_of_le_pi_div_two (by linarith) hq hpq
  have hF := lossSpec_range o B hB r Rhub Rtip q hRhub h1 h2 (by linarith) (by linarith [pi_pos])
  have t : (if o.tipLoss then prandtl B (Rtip - r) r p else 1) ^ 2 * sin p ≤ (if o.tipLoss then prandtl B (Rtip - r) r q else 1) ^ 2 * sin q := by
    split_ifs
    · exact prandtl_sq hB (sub_pos.mpr h2) hr hp hpq hq
    · linarith
  have u : (if o.hubLoss then prandtl B (r - Rhub) Rhub p else 1) ^ 2 * sin p ≤ (if o.hubLoss then prandtl B (r - Rhub) Rhub q else 1) ^ 2 * sin q := by
    split_ifs
    · exact prandtl_sq hB (sub_pos.mpr h1) hRhub hp hpq hq
    · linarith
  refine le_of_sq_le_sq ?_ (mul_nonneg hF.1.le (hs.le.trans hss))
  have := mul_le_mul t u (by positivity) (by have := hs.trans_le hss; positivity)
  unfold lossSpec
  linarith [this]

end

end Verif
