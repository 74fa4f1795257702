import Mathlib.Analysis.Calculus.Deriv.Basic
import Mathlib.Analysis.Calculus.Deriv.Slope
import Mathlib.Analysis.Calculus.Deriv.Add
import Mathlib.Analysis.Calculus.Deriv.Comp
import Mathlib.Analysis.Calculus.FDeriv.Prod
import Mathlib.Analysis.Normed.Module.FiniteDimension

/-!
# Differentiability of an implicitly defined function

A function of two variables that is differentiable along every differentiable curve through a point, and a continuous
solution of `G (P t) t = 0` through this point: the solution is differentiable.
-/

namespace Verif

open Filter Topology

/-- A sequence `h` of nonzero vectors that tends to zero with directions tending to `v` lies on a curve with velocity
`v`. -/
theorem curve_through {h : ℕ → ℝ × ℝ} {v : ℝ × ℝ} (h0 : ∀ n, h n ≠ 0)
    (hv : Tendsto (fun n => ‖h n‖⁻¹ • h n) atTop (𝓝 v)) :
    ∃ c : ℝ → ℝ × ℝ, c 0 = 0 ∧ HasDerivAt c v 0 ∧ ∀ n, ∃ m, c ‖h n‖ = h m := by
  classical
  refine ⟨fun s => if hs : ∃ n, ‖h n‖ = s then h hs.choose else s • v, ?_, ?_, ?_⟩
  · have : ¬ ∃ n, ‖h n‖ = 0 := by
      rintro ⟨n, hn⟩
      exact h0 n (norm_eq_zero.mp hn)
    show (if hs : ∃ n, ‖h n‖ = 0 then h hs.choose else (0 : ℝ) • v) = 0
    rw [dif_neg this, zero_smul]
  · rw [hasDerivAt_iff_isLittleO, Asymptotics.isLittleO_iff]
    intro ε hε
    obtain ⟨N, hN⟩ := (Metric.tendsto_atTop.mp hv) ε hε
    have hpos : ∀ n, 0 < ‖h n‖ := fun n => norm_pos_iff.mpr (h0 n)
    have hsmall : ∀ᶠ s in 𝓝 (0 : ℝ), ∀ n ∈ Finset.range N, s < ‖h n‖ :=
      (Filter.eventually_all_finset _).mpr fun n _ => eventually_lt_nhds (hpos n)
    filter_upwards [hsmall] with s hs
    have hz : ¬ ∃ n, ‖h n‖ = 0 := by
      rintro ⟨n, hn⟩
      exact h0 n (norm_eq_zero.mp hn)
    by_cases he : ∃ n, ‖h n‖ = s
    · have hm := he.choose_spec
      have hmN : N ≤ he.choose := by
        by_contra hlt
        have := hs _ (Finset.mem_range.mpr (not_le.mp hlt))
        linarith
      have hd := hN _ hmN
      rw [dist_eq_norm, hm] at hd
      have hs0 : 0 < s := hm ▸ hpos _
      simp only [dif_pos he, dif_neg hz, zero_smul, sub_zero]
      have e : h he.choose - s • v = s • (s⁻¹ • h he.choose - v) := by
        rw [smul_sub, smul_smul, mul_inv_cancel₀ hs0.ne', one_smul]
      rw [e, norm_smul, mul_comm]
      exact mul_le_mul_of_nonneg_right hd.le (norm_nonneg _)
    · simp only [dif_neg he, dif_neg hz, zero_smul, sub_zero, sub_self, norm_zero]
      positivity
  · intro n
    have he : ∃ m, ‖h m‖ = ‖h n‖ := ⟨n, rfl⟩
    exact ⟨he.choose, dif_pos he⟩

/-- The implicit derivative: if `G` has the directional derivatives of a differentiable function along all curves through
`(P t, t)`, a continuous solution `P` of `G (P s) s = 0` is differentiable. -/
theorem implicit_deriv {G : ℝ → ℝ → ℝ} {P : ℝ → ℝ} {t Ga Gb : ℝ} (hP : ContinuousAt P t)
    (hG : ∀ (A T : ℝ → ℝ) (a b : ℝ), A 0 = P t → T 0 = t → HasDerivAt A a 0 → HasDerivAt T b 0 →
      HasDerivAt (fun s => G (A s) (T s)) (a * Ga + b * Gb) 0)
    (hzero : ∀ᶠ s in 𝓝 t, G (P s) s = 0) (hGa : Ga ≠ 0) : HasDerivAt P (-(Gb / Ga)) t := by
  rw [hasDerivAt_iff_isLittleO, Asymptotics.isLittleO_iff]
  by_contra hcon
  push Not at hcon
  obtain ⟨ε, hε, hfr⟩ := hcon
  have hfr2 : ∃ᶠ s in 𝓝 t, ε * ‖s - t‖ < ‖P s - P t - (s - t) • (-(Gb / Ga))‖ ∧ G (P s) s = 0 := by
    refine Frequently.and_eventually ?_ hzero
    exact hfr
  obtain ⟨u, hu, hbad⟩ := exists_seq_forall_of_frequently hfr2
  set h : ℕ → ℝ × ℝ := fun n => (P (u n) - P t, u n - t) with hh
  have h0 : ∀ n, h n ≠ 0 := by
    intro n he
    have e1 : P (u n) - P t = 0 := congrArg Prod.fst he
    have e2 : u n - t = 0 := congrArg Prod.snd he
    have := (hbad n).1
    rw [e1, e2] at this
    simp at this
  have hlim : Tendsto h atTop (𝓝 0) := by
    have a1 : Tendsto (fun n => P (u n) - P t) atTop (𝓝 0) := by
      simpa using (hP.tendsto.comp hu).sub_const (P t)
    have a2 : Tendsto (fun n => u n - t) atTop (𝓝 0) := by simpa using hu.sub_const t
    exact a1.prodMk_nhds a2
  have hsph : ∀ n, ‖h n‖⁻¹ • h n ∈ Metric.sphere (0 : ℝ × ℝ) 1 := by
    intro n
    rw [mem_sphere_zero_iff_norm, norm_smul, norm_inv, norm_norm, inv_mul_cancel₀ (norm_ne_zero_iff.mpr (h0 n))]
  obtain ⟨v, hv, σ, hσ, hσv⟩ := (isCompact_sphere (0 : ℝ × ℝ) 1).tendsto_subseq hsph
  obtain ⟨c, hc0, hc, hcm⟩ := curve_through (h := h ∘ σ) (fun n => h0 _) hσv
  have hA : HasDerivAt (fun s => P t + (c s).1) v.1 0 := by
    have := HasFDerivAt.comp_hasDerivAt (f := c) (0 : ℝ) (ContinuousLinearMap.fst ℝ ℝ ℝ).hasFDerivAt hc
    exact this.const_add (P t)
  have hT : HasDerivAt (fun s => t + (c s).2) v.2 0 := by
    have := HasFDerivAt.comp_hasDerivAt (f := c) (0 : ℝ) (ContinuousLinearMap.snd ℝ ℝ ℝ).hasFDerivAt hc
    exact this.const_add t
  have hd := hG _ _ _ _ (by simp [hc0]) (by simp [hc0]) hA hT
  -- the derivative vanishes, because the function does along the sequence
  have hρ : Tendsto (fun n => ‖(h ∘ σ) n‖) atTop (𝓝[≠] 0) := by
    refine tendsto_nhdsWithin_iff.mpr ⟨?_, Eventually.of_forall fun n => norm_ne_zero_iff.mpr (h0 _)⟩
    simpa using (hlim.comp hσ.tendsto_atTop).norm
  have hval : ∀ n, G (P t + (c ‖(h ∘ σ) n‖).1) (t + (c ‖(h ∘ σ) n‖).2) = 0 := by
    intro n
    obtain ⟨m, hm⟩ := hcm n
    rw [hm]
    simp only [hh, Function.comp, add_sub_cancel]
    exact (hbad _).2
  have hG0 : G (P t) t = 0 := hzero.self_of_nhds
  have hder : v.1 * Ga + v.2 * Gb = 0 := by
    have hs := (hasDerivAt_iff_tendsto_slope.mp hd).comp hρ
    refine tendsto_nhds_unique hs ?_
    refine tendsto_const_nhds.congr fun n => ?_
    have := hval n
    simp only [Function.comp_apply] at this ⊢
    simp [slope, this, hc0, hG0]
  -- the direction of the bad points
  have hdir : ε * ‖v.2‖ ≤ ‖v.1 + v.2 * (Gb / Ga)‖ := by
    have l1 : Tendsto (fun n => ε * ‖(‖(h ∘ σ) n‖⁻¹ • (h ∘ σ) n).2‖) atTop (𝓝 (ε * ‖v.2‖)) :=
      ((continuous_snd.tendsto v).comp hσv).norm.const_mul ε
    have l2 : Tendsto (fun n => ‖(‖(h ∘ σ) n‖⁻¹ • (h ∘ σ) n).1 + (‖(h ∘ σ) n‖⁻¹ • (h ∘ σ) n).2 * (Gb / Ga)‖) atTop
        (𝓝 ‖v.1 + v.2 * (Gb / Ga)‖) :=
      (((continuous_fst.tendsto v).comp hσv).add (((continuous_snd.tendsto v).comp hσv).mul_const _)).norm
    refine le_of_tendsto_of_tendsto' l1 l2 fun n => ?_
    have hb := (hbad (σ n)).1
    simp only [Function.comp, Prod.smul_fst, Prod.smul_snd, smul_eq_mul, norm_mul] 
    have e : ‖h (σ n)‖⁻¹ * (h (σ n)).1 + ‖h (σ n)‖⁻¹ * (h (σ n)).2 * (Gb / Ga)
        = ‖h (σ n)‖⁻¹ * (P (u (σ n)) - P t - (u (σ n) - t) • (-(Gb / Ga))) := by
      simp only [hh, smul_eq_mul]
      ring
    rw [e, norm_mul]
    have := mul_le_mul_of_nonneg_left hb.le (norm_nonneg (‖h (σ n)‖⁻¹))
    calc _ = ‖‖h (σ n)‖⁻¹‖ * (ε * ‖u (σ n) - t‖) := by simp only [hh]; ring
      _ ≤ _ := this
  have h1 : v.1 = -(v.2 * (Gb / Ga)) := by
    field_simp
    linarith
  rw [h1] at hdir
  have h2 : v.2 = 0 := by
    simp only [neg_add_cancel, norm_zero] at hdir
    have : ‖v.2‖ ≤ 0 := by
      by_contra hlt
      have := mul_pos hε (not_le.mp hlt)
      linarith
    exact norm_le_zero_iff.mp this
  have h3 : v = 0 := by
    refine Prod.ext ?_ h2
    rw [h1, h2]
    simp
  rw [h3] at hv
  simp at hv

end Verif
