import Verif.Num
import Mathlib.Analysis.SpecialFunctions.Complex.LogDeriv
import Mathlib.Analysis.Complex.RealDeriv

/-! # Derivative of `atan2` -/

namespace Verif

/-- `atan2 y x` along a differentiable curve off the negative real axis. -/
theorem atan2_hasDerivAt {y x : ℝ → ℝ} {y' x' t : ℝ} (hy : HasDerivAt y y' t) (hx : HasDerivAt x x' t)
    (h : 0 < x t ∨ y t ≠ 0) :
    HasDerivAt (fun s => Num.atan2 (y s) (x s))
      (x t * y' / (y t ^ 2 + x t ^ 2) - y t * x' / (y t ^ 2 + x t ^ 2)) t := by
  have hf : HasDerivAt (fun s => (⟨x s, y s⟩ : ℂ)) ⟨x', y'⟩ t := by
    have h1 := hx.ofReal_comp.add (hy.ofReal_comp.mul_const Complex.I)
    refine (h1.congr_deriv ?_).congr_of_eventuallyEq (Filter.Eventually.of_forall fun s => ?_)
    · apply Complex.ext <;> simp
    · apply Complex.ext <;> simp
  have hm : (⟨x t, y t⟩ : ℂ) ∈ Complex.slitPlane := by
    rw [Complex.mem_slitPlane_iff]
    exact h
  have hl := hf.clog_real hm
  have hi := (Complex.imCLM.hasFDerivAt (x := Complex.log ⟨x t, y t⟩)).comp_hasDerivAt t hl
  refine (hi.congr_deriv ?_).congr_of_eventuallyEq (Filter.Eventually.of_forall fun s => ?_)
  · simp only [Complex.imCLM_apply, Complex.div_im, Complex.normSq_mk]
    have : x t * x t + y t * y t = y t ^ 2 + x t ^ 2 := by ring
    rw [this]
    ring
  · simp [real_atan2, Complex.log_im]

end Verif
