import Verif.Num

/-!
# Model of the primal kernels of `ccblade/src/bem.f90`

Fortran arrays of length `n` are modelled as functions `ℕ → α` together with `n`; index `i` of the model is index `i+1`
of the Fortran code.  The order of the floating-point operations is kept.
-/

namespace Verif

/-- The switches `useCd, hubLoss, tipLoss, wakerotation` of `inductionFactors` (bem.f90 l. 29). -/
structure BemOpts where
  useCd : Bool
  hubLoss : Bool
  tipLoss : Bool
  wakeRot : Bool
  deriving DecidableEq, Repr

/-- Outputs `fzero, a, ap` (bem.f90 l. 33). -/
structure IndOut (α : Type) where
  fzero : α
  a : α
  ap : α

variable {α : Type} [Num α]

/-- local solidity `sigma_p` (bem.f90 l. 44) -/
def solidity (B : ℕ) (chord r : α) : α := Num.nat B / Num.nat 2 / Num.pi * chord / r

/-- normal force coefficient `cn` (bem.f90 ll. 48-55) -/
def normalCoef (useCd : Bool) (cl cd sphi cphi : α) : α :=
  if !useCd then cl * cphi else cl * cphi + cd * sphi

/-- tangential force coefficient `ct` (bem.f90 ll. 48-55) -/
def tangCoef (useCd : Bool) (cl cd sphi cphi : α) : α :=
  if !useCd then cl * sphi else cl * sphi - cd * cphi

/-- Prandtl tip loss factor `Ftip` (bem.f90 ll. 58-63) -/
def tipFactor (tipLoss : Bool) (B : ℕ) (r Rtip sphi : α) : α :=
  if tipLoss then
    let factortip := Num.nat B / Num.nat 2 * (Rtip - r) / (r * sphi)
    Num.nat 2 / Num.pi * Num.acos (Num.exp (-factortip))
  else 1

/-- Prandtl hub loss factor `Fhub` (bem.f90 ll. 65-70) -/
def hubFactor (hubLoss : Bool) (B : ℕ) (r Rhub sphi : α) : α :=
  if hubLoss then
    let factorhub := Num.nat B / Num.nat 2 * (r - Rhub) / (Rhub * sphi)
    Num.nat 2 / Num.pi * Num.acos (Num.exp (-factorhub))
  else 1

/-- `k` (bem.f90 l. 75) -/
def bemK (sigma cn F sphi : α) : α := sigma * cn / Num.nat 4 / F / sphi / sphi
/-- `kp` (bem.f90 l. 76) -/
def bemKp (sigma ct F sphi cphi : α) : α := sigma * ct / Num.nat 4 / F / sphi / cphi

/-- `g1` (bem.f90 l. 87) -/
def buhlG1 (F k : α) : α := Num.nat 2 * F * k - (Num.nat 10 / Num.nat 9 - F)
/-- `g2` (bem.f90 l. 88) -/
def buhlG2 (F k : α) : α := Num.nat 2 * F * k - (Num.nat 4 / Num.nat 3 - F) * F
/-- `g3` (bem.f90 l. 89) -/
def buhlG3 (F k : α) : α := Num.nat 2 * F * k - (Num.nat 25 / Num.nat 9 - Num.nat 2 * F)

/-- axial induction factor `a` (bem.f90 ll. 78-107) -/
def axialInduction (phi k F : α) : α :=
  if 0 < phi then
    if k ≤ Num.nat 2 / Num.nat 3 then
      k / (1 + k)
    else
      let g1 := buhlG1 F k
      let g2 := buhlG2 F k
      let g3 := buhlG3 F k
      if nabs g3 < Num.nat 1 / Num.nat 1000000 then
        1 - 1 / Num.nat 2 / Num.sqrt g2
      else
        (g1 - Num.sqrt g2) / g3
  else if 1 < k then
    k / (k - 1)
  else 0

/-- error function `fzero` (bem.f90 ll. 117-123); `kp` is the value after the `wakerotation` reset. -/
def bemResidual (phi sphi cphi a k kp Vx Vy : α) : α :=
  let lambda_r := Vy / Vx
  if 0 < phi then
    sphi / (1 - a) - cphi / lambda_r * (1 - kp)
  else
    sphi * (1 - k) - cphi / lambda_r * (1 - kp)

/-- `subroutine inductionFactors` (bem.f90 ll. 17-125) -/
def inductionFactors (r chord Rhub Rtip phi cl cd : α) (B : ℕ) (Vx Vy : α) (o : BemOpts) : IndOut α :=
  let sigma_p := solidity B chord r
  let sphi := Num.sin phi
  let cphi := Num.cos phi
  let cn := normalCoef o.useCd cl cd sphi cphi
  let ct := tangCoef o.useCd cl cd sphi cphi
  let F := tipFactor o.tipLoss B r Rtip sphi * hubFactor o.hubLoss B r Rhub sphi
  let k := bemK sigma_p cn F sphi
  let kp0 := bemKp sigma_p ct F sphi cphi
  let a := axialInduction phi k F
  -- ll. 109-115
  let ap0 := kp0 / (1 - kp0)
  let ap := if !o.wakeRot then 0 else ap0
  let kp := if !o.wakeRot then 0 else kp0
  ⟨bemResidual phi sphi cphi a k kp Vx Vy, a, ap⟩

/-- Outputs of `relativeWind` (bem.f90 l. 142). -/
structure WindOut (α : Type) where
  alpha : α
  W : α
  Re : α

/-- `W` (bem.f90 ll. 150-156) -/
def relSpeed (phi a ap Vx Vy : α) : α :=
  if Num.nat 10 < nabs a then
    Vy * (1 + ap) / Num.cos phi
  else if Num.nat 10 < nabs ap then
    Vx * (1 - a) / Num.sin phi
  else
    Num.sqrt (sq (Vx * (1 - a)) + sq (Vy * (1 + ap)))

/-- `subroutine relativeWind` (bem.f90 ll. 130-162) -/
def relativeWind (phi a ap Vx Vy pitch chord theta rho mu : α) : WindOut α :=
  let W := relSpeed phi a ap Vx Vy
  ⟨phi - (theta + pitch), W, rho * W * chord / mu⟩

/-- `x_az` (bem.f90 l. 187) -/
def xAz (r precurve : ℕ → α) (precone : α) (i : ℕ) : α :=
  -r i * Num.sin precone + precurve i * Num.cos precone
/-- `z_az` (bem.f90 l. 188) -/
def zAz (r precurve : ℕ → α) (precone : α) (i : ℕ) : α :=
  r i * Num.cos precone + precurve i * Num.sin precone
/-- `y_az` (bem.f90 l. 189) -/
def yAz (presweep : ℕ → α) (i : ℕ) : α := presweep i

/-- `atan2(-(x_az(i+1) - x_az(i)), z_az(i+1) - z_az(i))`: angle of the segment from station `i` to `i+1`
(bem.f90 ll. 193-196). -/
def segAngle (x z : ℕ → α) (i : ℕ) : α := Num.atan2 (-(x (i + 1) - x i)) (z (i + 1) - z i)

/-- `cone` (bem.f90 ll. 192-196); for `n = 2` the middle section assignment is empty. -/
def coneAngle (n : ℕ) (x z : ℕ → α) (i : ℕ) : α :=
  if i = 0 then segAngle x z 0
  else if i = n - 1 then segAngle x z (n - 2)
  else 1 / Num.nat 2 * (segAngle x z (i - 1) + segAngle x z i)

/-- path length of segment `i` to `i+1` (bem.f90 ll. 201-202) -/
def segLength (r precurve presweep : ℕ → α) (i : ℕ) : α :=
  Num.sqrt (sq (precurve (i + 1) - precurve i) + sq (presweep (i + 1) - presweep i) + sq (r (i + 1) - r i))

/-- `s` (bem.f90 ll. 199-204) -/
def pathLength (r precurve presweep : ℕ → α) : ℕ → α
  | 0 => 0
  | i + 1 => pathLength r precurve presweep i + segLength r precurve presweep i

/-- Outputs of `defineCurvature` (bem.f90 l. 177). -/
structure CurvOut (α : Type) where
  x_az : ℕ → α
  y_az : ℕ → α
  z_az : ℕ → α
  cone : ℕ → α
  s : ℕ → α

/-- `subroutine defineCurvature` (bem.f90 ll. 166-207) -/
def defineCurvature (n : ℕ) (r precurve presweep : ℕ → α) (precone : α) : CurvOut α :=
  let x := xAz r precurve precone
  let z := zAz r precurve precone
  ⟨x, yAz presweep, z, coneAngle n x z, pathLength r precurve presweep⟩

/-- `heightFromHub` (bem.f90 l. 252) -/
def heightFromHub (x y z tilt azimuth : α) : α :=
  (y * Num.sin azimuth + z * Num.cos azimuth) * Num.cos tilt - x * Num.sin tilt

/-- `V` (bem.f90 l. 257) -/
def shearedWind (Uinf height hubHt shearExp : α) : α := Uinf * Num.pow (1 + height / hubHt) shearExp

/-- `subroutine windComponents` (bem.f90 ll. 212-282): the pair `Vx(i), Vy(i)`. Angles in radians. -/
def windComponents (n : ℕ) (r precurve presweep : ℕ → α) (precone yaw tilt azimuth Uinf OmegaRPM hubHt shearExp : α)
    (i : ℕ) : α × α :=
  let sy := Num.sin yaw
  let cy := Num.cos yaw
  let st := Num.sin tilt
  let ct := Num.cos tilt
  let sa := Num.sin azimuth
  let ca := Num.cos azimuth
  let Omega := OmegaRPM * Num.pi / Num.nat 30
  let c := defineCurvature n r precurve presweep precone
  let sc := Num.sin (c.cone i)
  let cc := Num.cos (c.cone i)
  let V := shearedWind Uinf (heightFromHub (c.x_az i) (c.y_az i) (c.z_az i) tilt azimuth) hubHt shearExp
  let Vwind_x := V * ((cy * st * ca + sy * sa) * sc + cy * ct * cc)
  let Vwind_y := V * (cy * st * sa - sy * ca)
  let Vrot_x := -Omega * c.y_az i * sc
  let Vrot_y := Omega * c.z_az i
  (Vwind_x + Vrot_x, Vwind_y + Vrot_y)

/-- An array of `n` values with one value added at either end: `full(1) = a; full(2:n+1) = f; full(n+2) = b`
(bem.f90 ll. 312-331). -/
def padded (n : ℕ) (a : α) (f : ℕ → α) (b : α) (i : ℕ) : α :=
  if i = 0 then a else if i = n + 1 then b else f (i - 1)

/-- Outputs of `thrustTorque` (bem.f90 l. 302). -/
structure TTOut (α : Type) where
  T : α
  Y : α
  Z : α
  Q : α
  M : α

/-- trapezoidal rule (bem.f90 ll. 345-358): `sum_i 0.5*(f(i) + f(i+1))*(s(i+1) - s(i))` over `m` intervals -/
def trapz (m : ℕ) (f s : ℕ → α) : α := sumTo m (fun i => 1 / Num.nat 2 * (f i + f (i + 1)) * (s (i + 1) - s i))

/-- `subroutine thrustTorque` (bem.f90 ll. 290-360). The single loop over the five accumulators is written as five
independent accumulations. -/
def thrustTorque (n : ℕ) (Np Tp r precurve presweep : ℕ → α) (precone Rhub Rtip precurveTip presweepTip : α) :
    TTOut α :=
  let rfull := padded n Rhub r Rtip
  let curvefull := padded n 0 precurve precurveTip
  let sweepfull := padded n 0 presweep presweepTip
  let Npfull := padded n 0 Np 0
  let Tpfull := padded n 0 Tp 0
  let c := defineCurvature (n + 2) rfull curvefull sweepfull precone
  { T := trapz (n + 1) (fun i => Npfull i * Num.cos (c.cone i)) c.s
    Y := trapz (n + 1) Tpfull c.s
    Z := trapz (n + 1) (fun i => Npfull i * Num.sin (c.cone i)) c.s
    Q := trapz (n + 1) (fun i => Tpfull i * c.z_az i) c.s
    M := trapz (n + 1) (fun i => Npfull i * c.z_az i) c.s }

end Verif
