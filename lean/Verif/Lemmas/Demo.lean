import Verif.Spec.Demo
import Mathlib.Tactic.Ring
import Mathlib.Tactic.NormNum

/-! # Facts on the sample rotor -/

namespace Verif

theorem demoRotor_cone (i : ℕ) :
    (defineCurvature demoRotor.n demoRotor.r demoRotor.precurve demoRotor.presweep demoRotor.precone).cone i = 0 := by
  have : ∀ j : ℕ, segAngle (xAz demoRotor.r demoRotor.precurve demoRotor.precone)
      (zAz demoRotor.r demoRotor.precurve demoRotor.precone) j = 0 := by
    intro j
    simp only [segAngle, xAz, zAz, demoRotor, num_real]
    rw [Complex.arg_eq_zero_iff]
    constructor
    · push_cast; norm_num
    · norm_num
  simp only [defineCurvature, coneAngle, this]
  split_ifs <;> simp

theorem demoRotor_wind (U Omega az : ℝ) (i : ℕ) :
    rotorWind demoRotor U Omega az i = (U, Omega * Real.pi / 30 * (10 + 20 * i)) := by
  unfold rotorWind windComponents
  simp only [demoRotor_cone, num_real]
  simp [defineCurvature, xAz, zAz, yAz, demoRotor, shearedWind, num_real]

end Verif
