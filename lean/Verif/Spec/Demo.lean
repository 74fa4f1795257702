import Verif.Model.CCBlade

/-!
# A small rotor used to show that hypotheses of theorems can be met
-/

namespace Verif

/-- Lift `6 (alpha + 1/20)`, drag `1/100`, no dependence on the Reynolds number. -/
noncomputable def demoAirfoil : AirfoilI ℝ where
  evaluate alpha _ := (6 * (alpha + 1 / 20), 1 / 100)
  dclda _ _ := 6
  dcldRe _ _ := 0
  dcdda _ _ := 0
  dcddRe _ _ := 0

/-- A straight blade with three stations at 10, 30 and 50 m. -/
noncomputable def demoRotor : Rotor ℝ where
  n := 3
  r i := 10 + 20 * i
  chord i := 4 - i
  theta i := 1 / 5 - i / 20
  af _ := demoAirfoil
  Rhub := 2
  Rtip := 60
  B := 3
  rho := 1225 / 1000
  mu := 1 / 50000
  precone := 0
  tilt := 0
  yaw := 0
  shearExp := 0
  hubHt := 90
  opts := ⟨true, false, false, true⟩
  iterRe := 1
  derivatives := false
  precurve _ := 0
  precurveTip := 0
  presweep _ := 0
  presweepTip := 0
  rotorR := 60
  nSector := 1
  inv := none
  pitch := none
  saved := none

/-- A root finder that returns the lower end of the interval, and rejects intervals starting at `π/2` or above. -/
noncomputable def demoBq : RootFinder ℝ := fun _ a _ => if a < 1 then .ok a else .error .valueError

end Verif
