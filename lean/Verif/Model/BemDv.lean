import Verif.Model.Bem

/-!
# Model of the Tapenade derivative kernels of `ccblade/src/bem.f90`

The loops over `nbdirs` treat the differentiation directions independently of each other; the model has a single
direction.  An argument `xd` is the direction of the input `x`.  The order of operations of the generated code is kept.
-/

namespace Verif

variable {α : Type} [Num α]

/-- An integer as a scalar (Fortran conversion of the result of `INT`). -/
def intc : ℤ → α
  | .ofNat n => Num.nat n
  | .negSucc n => -Num.nat (n + 1)

/-- The differentiable arguments of `INDUCTIONFACTORS_DV` (bem.f90 ll. 374-376). -/
structure IndIn (α : Type) where
  r : α
  chord : α
  Rhub : α
  Rtip : α
  phi : α
  cl : α
  cd : α
  Vx : α
  Vy : α

/-- Values with derivatives. -/
structure IndDvOut (α : Type) where
  fzero : α
  fzerod : α
  a : α
  ad : α
  ap : α
  apd : α

/-- `sigma_p`, `sigma_pd` (bem.f90 ll. 418-424) -/
def solidityDv (B : ℕ) (chord r chordd rd : α) : α × α :=
  let temp := Num.nat 2 * Num.pi * r
  (Num.nat B * (chord / temp),
   Num.nat B * (chordd - chord * Num.nat 2 * Num.pi * rd / temp) / temp)

/-- `cn`, `cnd` (bem.f90 ll. 428-444) -/
def normalDv (useCd : Bool) (cl cd sphi cphi cld cdd sphid cphid : α) : α × α :=
  if !useCd then (cl * cphi, cphi * cld + cl * cphid)
  else (cl * cphi + cd * sphi, cphi * cld + cl * cphid + sphi * cdd + cd * sphid)

/-- `ct`, `ctd` (bem.f90 ll. 428-444) -/
def tangDv (useCd : Bool) (cl cd sphi cphi cld cdd sphid cphid : α) : α × α :=
  if !useCd then (cl * sphi, sphi * cld + cl * sphid)
  else (cl * sphi - cd * cphi, sphi * cld + cl * sphid - cphi * cdd - cd * cphid)

/-- derivative of `acos(exp(-factor))` scaled by `2/pi` (bem.f90 ll. 452-465, 475-488) -/
def prandtlDv (factor factord : α) : α × α :=
  let arg1 := Num.exp (-factor)
  let arg1d := -(Num.exp (-factor) * factord)
  let result1d := if arg1 == 1 || arg1 == -1 then 0 else -(arg1d / Num.sqrt (1 - sq arg1))
  (Num.nat 2 / Num.pi * Num.acos arg1, Num.nat 2 * result1d / Num.pi)

/-- `ftip`, `ftipd` (bem.f90 ll. 446-468) -/
def tipDv (tipLoss : Bool) (B : ℕ) (r Rtip sphi rd Rtipd sphid : α) : α × α :=
  if tipLoss then
    let temp := Num.nat 2 * r * sphi
    let temp0 := (Rtip - r) / temp
    let factortip := Num.nat B * temp0
    let factortipd := Num.nat B * (Rtipd - rd - temp0 * (sphi * Num.nat 2 * rd + Num.nat 2 * r * sphid)) / temp
    prandtlDv factortip factortipd
  else (1, 0)

/-- `fhub`, `fhubd` (bem.f90 ll. 469-491) -/
def hubDv (hubLoss : Bool) (B : ℕ) (r Rhub sphi rd Rhubd sphid : α) : α × α :=
  if hubLoss then
    let temp0 := Num.nat 2 * Rhub * sphi
    let temp := (r - Rhub) / temp0
    let factorhub := Num.nat B * temp
    let factorhubd := Num.nat B * (rd - Rhubd - temp * (sphi * Num.nat 2 * Rhubd + Num.nat 2 * Rhub * sphid)) / temp0
    prandtlDv factorhub factorhubd
  else (1, 0)

/-- `k`, `kd` (bem.f90 ll. 494-501) -/
def bemKDv (sigma cn f sphi sigmad cnd fd sphid : α) : α × α :=
  let temp0 := Num.nat 4 * f * (sphi * sphi)
  let temp := sigma * cn / temp0
  (temp, (cn * sigmad + sigma * cnd
    - temp * (sq sphi * Num.nat 4 * fd + Num.nat 4 * f * Num.nat 2 * sphi * sphid)) / temp0)

/-- `kp`, `kpd` (bem.f90 ll. 502-508) -/
def bemKpDv (sigma ct f sphi cphi sigmad ctd fd sphid cphid : α) : α × α :=
  let temp0 := Num.nat 4 * f * sphi * cphi
  let temp := sigma * ct / temp0
  (temp, (ct * sigmad + sigma * ctd
    - temp * (sphi * cphi * Num.nat 4 * fd + Num.nat 4 * f * (cphi * sphid + sphi * cphid))) / temp0)

/-- `a`, `ad` (bem.f90 ll. 510-577) -/
def axialDv (phi k f kd fd : α) : α × α :=
  if 0 < phi then
    if k ≤ Num.nat 2 / Num.nat 3 then
      let temp0 := k / (k + 1)
      (temp0, (1 - temp0) * kd / (k + 1))
    else
      let g1d := Num.nat 2 * (k * fd + f * kd) + fd
      let g2d := Num.nat 2 * (k * fd + f * kd) - (Num.nat 4 / Num.nat 3 - Num.nat 2 * f) * fd
      let g3d := Num.nat 2 * (k * fd + f * kd) + Num.nat 2 * fd
      let g1 := buhlG1 f k
      let g2 := buhlG2 f k
      let g3 := buhlG3 f k
      -- ll. 530-534
      let abs0 := if 0 ≤ g3 then g3 else -g3
      if abs0 < Num.nat 1 / Num.nat 1000000 then
        let result1 := Num.sqrt g2
        let temp1 := 1 / (Num.nat 2 * result1)
        let result1d := if g2 == 0 then 0 else g2d / (Num.nat 2 * result1)
        (1 - temp1, temp1 * result1d / result1)
      else
        let temp0 := Num.sqrt g2
        let result1d := if g2 == 0 then 0 else g2d / (Num.nat 2 * temp0)
        let temp0' := (g1 - temp0) / g3
        (temp0', (g1d - result1d - temp0' * g3d) / g3)
  else if 1 < k then
    let temp0 := k / (k - 1)
    (temp0, (1 - temp0) * kd / (k - 1))
  else (0, 0)

/-- `fzero`, `fzerod` (bem.f90 ll. 590-612), with `kp`, `kpd`, after the wake rotation reset -/
def residualDv (phi sphi cphi a k kp Vx Vy sphid cphid ad kd kpd Vxd Vyd : α) : α × α :=
  let lambda_rd := (Vyd - Vy * Vxd / Vx) / Vx
  let lambda_r := Vy / Vx
  if 0 < phi then
    let temp0 := sphi / (-a + 1)
    let temp := cphi / lambda_r
    (temp0 - (1 - kp) * temp,
     (sphid + temp0 * ad) / (1 - a) - (1 - kp) * (cphid - temp * lambda_rd) / lambda_r + temp * kpd)
  else
    let temp0 := cphi / lambda_r
    (sphi * (1 - k) - (1 - kp) * temp0,
     (1 - k) * sphid - sphi * kd - (1 - kp) * (cphid - temp0 * lambda_rd) / lambda_r + temp0 * kpd)

/-- `SUBROUTINE INDUCTIONFACTORS_DV` (bem.f90 ll. 374-613) -/
def inductionFactorsDv (x d : IndIn α) (B : ℕ) (o : BemOpts) : IndDvOut α :=
  let sphid := Num.cos x.phi * d.phi
  let cphid := -(Num.sin x.phi * d.phi)
  let sg := solidityDv B x.chord x.r d.chord d.r
  let sphi := Num.sin x.phi
  let cphi := Num.cos x.phi
  let cn := normalDv o.useCd x.cl x.cd sphi cphi d.cl d.cd sphid cphid
  let ct := tangDv o.useCd x.cl x.cd sphi cphi d.cl d.cd sphid cphid
  let ftip := tipDv o.tipLoss B x.r x.Rtip sphi d.r d.Rtip sphid
  let fhub := hubDv o.hubLoss B x.r x.Rhub sphi d.r d.Rhub sphid
  let f := ftip.1 * fhub.1
  let fd := fhub.1 * ftip.2 + ftip.1 * fhub.2
  let k := bemKDv sg.1 cn.1 f sphi sg.2 cn.2 fd sphid
  let kp0 := bemKpDv sg.1 ct.1 f sphi cphi sg.2 ct.2 fd sphid cphid
  let a := axialDv x.phi k.1 f k.2 fd
  -- ll. 578-589
  let ap0 := kp0.1 / (-kp0.1 + 1)
  let apd0 := (ap0 + 1) * kp0.2 / (1 - kp0.1)
  let ap := if !o.wakeRot then (0, 0) else (ap0, apd0)
  let kp := if !o.wakeRot then (0, 0) else kp0
  let fz := residualDv x.phi sphi cphi a.1 k.1 kp.1 x.Vx x.Vy sphid cphid a.2 k.2 kp.2 d.Vx d.Vy
  ⟨fz.1, fz.2, a.1, a.2, ap.1, ap.2⟩

/-- The differentiable arguments of `RELATIVEWIND_DV` (bem.f90 ll. 627-629); `rho` and `mu` are not differentiated. -/
structure RelIn (α : Type) where
  phi : α
  a : α
  ap : α
  Vx : α
  Vy : α
  pitch : α
  chord : α
  theta : α

/-- Values with derivatives. -/
structure RelDvOut (α : Type) where
  alpha : α
  alphad : α
  W : α
  Wd : α
  Re : α
  Red : α

/-- `w`, `wd` (bem.f90 ll. 659-702) -/
def relSpeedDv (x d : RelIn α) : α × α :=
  let abs0 := if 0 ≤ x.a then x.a else -x.a
  if Num.nat 10 < abs0 then
    let temp := Num.cos x.phi
    let temp0 := x.Vy * (x.ap + 1) / temp
    (temp0, ((x.ap + 1) * d.Vy + x.Vy * d.ap + temp0 * Num.sin x.phi * d.phi) / temp)
  else
    let abs1 := if 0 ≤ x.ap then x.ap else -x.ap
    if Num.nat 10 < abs1 then
      let temp0 := Num.sin x.phi
      let temp := x.Vx * (-x.a + 1) / temp0
      (temp, ((1 - x.a) * d.Vx - x.Vx * d.a - temp * Num.cos x.phi * d.phi) / temp0)
    else
      let arg1 := sq (x.Vx * (1 - x.a)) + sq (x.Vy * (1 + x.ap))
      let temp0 := Num.sqrt arg1
      let arg1d := Num.nat 2 * x.Vx * (1 - x.a) * ((1 - x.a) * d.Vx - x.Vx * d.a)
        + Num.nat 2 * x.Vy * (x.ap + 1) * ((x.ap + 1) * d.Vy + x.Vy * d.ap)
      (temp0, if arg1 == 0 then 0 else arg1d / (Num.nat 2 * temp0))

/-- `SUBROUTINE RELATIVEWIND_DV` (bem.f90 ll. 627-707) -/
def relativeWindDv (x d : RelIn α) (rho mu : α) : RelDvOut α :=
  let w := relSpeedDv x d
  { alpha := x.phi - (x.theta + x.pitch)
    alphad := d.phi - d.theta - d.pitch
    W := w.1
    Wd := w.2
    Re := rho * w.1 * x.chord / mu
    Red := rho * (x.chord * w.2 + w.1 * d.chord) / mu }

/-- `x_az`, `x_azd` (bem.f90 ll. 885-889, 896; 1265-1269, 1276) -/
def xAzDv (r precurve rd precurved : ℕ → α) (precone preconed : α) (i : ℕ) : α × α :=
  (precurve i * Num.cos precone - r i * Num.sin precone,
   Num.cos precone * precurved i - (precurve i * Num.sin precone + r i * Num.cos precone) * preconed
     - Num.sin precone * rd i)

/-- `z_az`, `z_azd` (bem.f90 ll. 897-899, 908-909; 1277-1279, 1288-1289) -/
def zAzDv (r precurve rd precurved : ℕ → α) (precone preconed : α) (i : ℕ) : α × α :=
  (r i * Num.cos precone + precurve i * Num.sin precone,
   Num.cos precone * rd i - (r i * Num.sin precone - precurve i * Num.cos precone) * preconed
     + Num.sin precone * precurved i)

/-- derivative of the angle of the segment `i` to `i+1` (bem.f90 ll. 892, 910-912, 919-920, 928-931):
`arg2*arg1d/(arg1**2+arg2**2) - arg1*arg2d/(arg1**2+arg2**2)` with `arg1 = -(x(i+1) - x(i))`, `arg2 = z(i+1) - z(i)`. -/
def segAngleDv (x z xd zd : ℕ → α) (i : ℕ) : α :=
  let arg1 := -(x (i + 1) - x i)
  let arg2 := z (i + 1) - z i
  let arg1d := xd i - xd (i + 1)
  let arg2d := zd (i + 1) - zd i
  arg2 * arg1d / (sq arg1 + sq arg2) - arg1 * arg2d / (sq arg1 + sq arg2)

/-- `coned` (bem.f90 ll. 902-931; 1282-1311) -/
def coneDv (n : ℕ) (x z xd zd : ℕ → α) (i : ℕ) : α :=
  if i = 0 then segAngleDv x z xd zd 0
  else if i = n - 1 then segAngleDv x z xd zd (n - 2)
  else
    let arg10 := -(x i - x (i - 1))
    let arg20 := z i - z (i - 1)
    let arg3 := -(x (i + 1) - x i)
    let arg4 := z (i + 1) - z i
    let arg10d := xd (i - 1) - xd i
    let arg20d := zd i - zd (i - 1)
    let arg3d := xd i - xd (i + 1)
    let arg4d := zd (i + 1) - zd i
    1 / Num.nat 2 * (arg20 * arg10d / (sq arg10 + sq arg20) - arg10 * arg20d / (sq arg10 + sq arg20)
      + arg4 * arg3d / (sq arg3 + sq arg4) - arg3 * arg4d / (sq arg3 + sq arg4))

/-- derivative of the length of the segment `i` to `i+1` (bem.f90 ll. 1317-1329) -/
def segLengthDv (r precurve presweep rd precurved presweepd : ℕ → α) (i : ℕ) : α :=
  let arg1 := sq (precurve (i + 1) - precurve i) + sq (presweep (i + 1) - presweep i) + sq (r (i + 1) - r i)
  let temp0 := Num.sqrt arg1
  let arg1d := Num.nat 2 * (precurve (i + 1) - precurve i) * (precurved (i + 1) - precurved i)
    + Num.nat 2 * (presweep (i + 1) - presweep i) * (presweepd (i + 1) - presweepd i)
    + Num.nat 2 * (r (i + 1) - r i) * (rd (i + 1) - rd i)
  if arg1 == 0 then 0 else arg1d / (Num.nat 2 * temp0)

/-- `sd` (bem.f90 ll. 1314-1334; only in `DEFINECURVATURE_DV2`) -/
def pathLengthDv (r precurve presweep rd precurved presweepd : ℕ → α) : ℕ → α
  | 0 => 0
  | i + 1 => pathLengthDv r precurve presweep rd precurved presweepd i
      + segLengthDv r precurve presweep rd precurved presweepd i

/-- Values with derivatives. -/
structure CurvDvOut (α : Type) where
  x_az : ℕ → α
  x_azd : ℕ → α
  y_az : ℕ → α
  y_azd : ℕ → α
  z_az : ℕ → α
  z_azd : ℕ → α
  cone : ℕ → α
  coned : ℕ → α
  s : ℕ → α
  sd : ℕ → α

/-- `SUBROUTINE DEFINECURVATURE_DV2` (bem.f90 ll. 1223-1335).  `DEFINECURVATURE_DV` (ll. 844-941) is the same code
without `sd`. -/
def defineCurvatureDv2 (n : ℕ) (r precurve presweep rd precurved presweepd : ℕ → α) (precone preconed : α) :
    CurvDvOut α :=
  let x := fun i => (xAzDv r precurve rd precurved precone preconed i).1
  let xd := fun i => (xAzDv r precurve rd precurved precone preconed i).2
  let z := fun i => (zAzDv r precurve rd precurved precone preconed i).1
  let zd := fun i => (zAzDv r precurve rd precurved precone preconed i).2
  { x_az := x, x_azd := xd
    y_az := presweep, y_azd := presweepd
    z_az := z, z_azd := zd
    cone := coneAngle n x z
    coned := coneDv n x z xd zd
    s := pathLength r precurve presweep
    sd := pathLengthDv r precurve presweep rd precurved presweepd }

/-- The scalar differentiable arguments of `WINDCOMPONENTS_DV` (bem.f90 ll. 721-724). -/
structure WindIn (α : Type) where
  precone : α
  yaw : α
  tilt : α
  azimuth : α
  Uinf : α
  OmegaRPM : α
  hubHt : α
  shearExp : α

/-- derivative of the power (bem.f90 ll. 804-812) -/
def powDv (pwx1 shearexp pwx1d shearexpd : α) : α :=
  if pwx1 ≤ 0 && (shearexp == 0 || !(shearexp == intc (Num.trunc shearexp))) then 0
  else if pwx1 ≤ 0 then shearexp * Num.pow pwx1 (shearexp - 1) * pwx1d
  else shearexp * Num.pow pwx1 (shearexp - 1) * pwx1d + Num.pow pwx1 shearexp * Num.log pwx1 * shearexpd

/-- `SUBROUTINE WINDCOMPONENTS_DV` (bem.f90 ll. 721-839): `((vx, vxd), (vy, vyd))` at station `i`. -/
def windComponentsDv (n : ℕ) (r precurve presweep rd precurved presweepd : ℕ → α) (x d : WindIn α) (i : ℕ) :
    (α × α) × (α × α) :=
  let st := Num.sin x.tilt
  let ct := Num.cos x.tilt
  let sa := Num.sin x.azimuth
  let ca := Num.cos x.azimuth
  let omega := x.OmegaRPM * Num.pi / Num.nat 30
  let c := defineCurvatureDv2 n r precurve presweep rd precurved presweepd x.precone d.precone
  let sc := Num.sin (c.cone i)
  let temp := c.y_az i * sa + c.z_az i * ca
  let height := temp * ct - c.x_az i * st
  let syd := Num.cos x.yaw * d.yaw
  let cyd := -(Num.sin x.yaw * d.yaw)
  let std := Num.cos x.tilt * d.tilt
  let ctd := -(Num.sin x.tilt * d.tilt)
  let sad := Num.cos x.azimuth * d.azimuth
  let cad := -(Num.sin x.azimuth * d.azimuth)
  let omegad := Num.pi * d.OmegaRPM / Num.nat 30
  let scd := Num.cos (c.cone i) * c.coned i
  let ccd := -(Num.sin (c.cone i) * c.coned i)
  let heightd := ct * (sa * c.y_azd i + c.y_az i * sad + ca * c.z_azd i + c.z_az i * cad) + temp * ctd
    - st * c.x_azd i - c.x_az i * std
  let pwx1d := (heightd - height * d.hubHt / x.hubHt) / x.hubHt
  let vrot_xd := -(sc * (c.y_az i * omegad + omega * c.y_azd i) + omega * c.y_az i * scd)
  let vrot_yd := c.z_az i * omegad + omega * c.z_azd i
  let sy := Num.sin x.yaw
  let cy := Num.cos x.yaw
  let cc := Num.cos (c.cone i)
  let pwx1 := 1 + height / x.hubHt
  let pwr1 := Num.pow pwx1 x.shearExp
  let pwr1d := powDv pwx1 x.shearExp pwx1d d.shearExp
  let vd := pwr1 * d.Uinf + x.Uinf * pwr1d
  let v := x.Uinf * pwr1
  let temp0 := cy * st * ca + sy * sa
  let temp1 := temp0 * sc + cy * ct * cc
  let vwind_xd := temp1 * vd + v * (sc * (ca * (st * cyd + cy * std) + cy * st * cad + sa * syd + sy * sad)
    + temp0 * scd + cc * (ct * cyd + cy * ctd) + cy * ct * ccd)
  let vwind_x := v * temp1
  let temp2 := cy * st * sa - sy * ca
  let vwind_yd := temp2 * vd + v * (sa * (st * cyd + cy * std) + cy * st * sad - ca * syd - sy * cad)
  let vwind_y := v * temp2
  let vrot_x := -(omega * c.y_az i * sc)
  let vrot_y := omega * c.z_az i
  ((vwind_x + vrot_x, vwind_xd + vrot_xd), (vwind_y + vrot_y, vwind_yd + vrot_yd))

end Verif
