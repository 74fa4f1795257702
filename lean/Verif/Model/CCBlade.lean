import Verif.Model.Py
import Verif.Model.BemDv
import Verif.Model.BemBv

/-!
# Model of `class CCBlade` of `ccblade/ccblade.py`

Arrays over the blade stations are functions `ℕ → α` together with the number `n` of stations.  The root finder
`scipy.optimize.brentq` and the airfoils are parameters.  Attributes of the object that methods overwrite are part of
the record `Rotor`; methods return the new record together with a result or an exception.
-/

namespace Verif

/-- What `CCBlade` uses of an airfoil object (ccblade.py ll. 177-227): `evaluate(alpha, Re)` and
`derivatives(alpha, Re)`. -/
structure AirfoilI (α : Type) where
  evaluate : α → α → α × α
  dclda : α → α → α
  dcldRe : α → α → α
  dcdda : α → α → α
  dcddRe : α → α → α

/-- Arguments of the constructor (ccblade.py ll. 463-490); `none` stands for an omitted `precurve`, `presweep`. -/
structure CCArgs (α : Type) where
  n : ℕ
  r : ℕ → α
  chord : ℕ → α
  theta : ℕ → α
  af : ℕ → AirfoilI α
  Rhub : α
  Rtip : α
  B : ℕ
  rho : α
  mu : α
  precone : α
  tilt : α
  yaw : α
  shearExp : α
  hubHt : α
  nSector : ℕ
  precurve : Option (ℕ → α)
  precurveTip : α
  presweep : Option (ℕ → α)
  presweepTip : α
  tiploss : Bool
  hubloss : Bool
  wakerotation : Bool
  usecd : Bool
  iterRe : ℕ
  derivatives : Bool

/-- Attributes set by the caller for the inverse analysis (`alpha` in radians, `cl`, `cd`; ccblade_component.py). -/
structure InvData (α : Type) where
  alpha : ℕ → α
  cl : ℕ → α
  cd : ℕ → α

/-- `_dNp_dX`, `_dTp_dX`, `_dNp_dprecurve`, `_dTp_dprecurve` (ccblade.py ll. 1089-1092). -/
structure LoadJac (α : Type) where
  dNp_dX : ℕ → ℕ → α
  dTp_dX : ℕ → ℕ → α
  dNp_dprecurve : ℕ → ℕ → α
  dTp_dprecurve : ℕ → ℕ → α

/-- Attributes of a `CCBlade` object. `inv = none` stands for `inverse_analysis == False`; `pitch`, `saved` are
`none` until first assigned. -/
structure Rotor (α : Type) where
  n : ℕ
  r : ℕ → α
  chord : ℕ → α
  theta : ℕ → α
  af : ℕ → AirfoilI α
  Rhub : α
  Rtip : α
  B : ℕ
  rho : α
  mu : α
  precone : α
  tilt : α
  yaw : α
  shearExp : α
  hubHt : α
  opts : BemOpts
  iterRe : ℕ
  derivatives : Bool
  precurve : ℕ → α
  precurveTip : α
  presweep : ℕ → α
  presweepTip : α
  rotorR : α
  nSector : ℕ
  inv : Option (InvData α)
  pitch : Option α
  saved : Option (LoadJac α)

variable {α : Type} [Num α]

/-- `CCBlade.__init__` (ccblade.py ll. 554-614).  All arrays are assumed to have the length `n` of `r`; `r[0]` of an empty
array raises `IndexError`. -/
def CCArgs.build (x : CCArgs α) : Except PyErr (Rotor α) := do
  let precone := deg2rad x.precone
  let tilt := deg2rad x.tilt
  let yaw := deg2rad x.yaw
  -- ll. 574-580
  let precurve := x.precurve.getD (fun _ => 0)
  let precurveTip := if x.precurve.isNone then 0 else x.precurveTip
  let presweep := x.presweep.getD (fun _ => 0)
  let presweepTip := if x.presweep.isNone then 0 else x.presweepTip
  if x.n = 0 then throw .indexError
  -- ll. 588-590
  let last := x.n - 1
  let r_nd := fun i => (x.r i - x.r 0) / (x.r last - x.r 0)
  let m0 := if x.n = 1 then r_nd 0 else (r_nd 0 + r_nd 1) / Num.nat 2
  let m1 := if x.n = 1 then r_nd 0 else (r_nd (x.n - 2) + r_nd last) / Num.nat 2
  let nd_hub := npMinimum (Num.nat 1 / Num.nat 100) m0
  let nd_tip := npMaximum (Num.nat 99 / Num.nat 100) m1
  -- ll. 591-598
  let hubSample ← npInterp nd_hub (arr x.n fun i => (r_nd i, x.r i))
  let r1 := if x.Rhub == x.r 0 then setAt x.r 0 hubSample else x.r
  let tipSample ← npInterp nd_tip (arr x.n fun i => (r_nd i, x.r i))
  let r2 := if x.Rtip == x.r last then setAt r1 last tipSample else r1
  let curveSample ← npInterp nd_tip (arr x.n fun i => (r_nd i, precurve i))
  let precurve' := if precurveTip == precurve last then setAt precurve last curveSample else precurve
  let sweepSample ← npInterp nd_tip (arr x.n fun i => (r_nd i, presweep i))
  let presweep' := if presweepTip == presweep last then setAt presweep last sweepSample else presweep
  return {
    n := x.n, r := r2, chord := x.chord, theta := fun i => deg2rad (x.theta i), af := x.af
    Rhub := x.Rhub, Rtip := x.Rtip, B := x.B, rho := x.rho, mu := x.mu
    precone := precone, tilt := tilt, yaw := yaw, shearExp := x.shearExp, hubHt := x.hubHt
    opts := ⟨x.usecd, x.hubloss, x.tiploss, x.wakerotation⟩
    iterRe := x.iterRe, derivatives := x.derivatives
    precurve := precurve', precurveTip := precurveTip, presweep := presweep', presweepTip := presweepTip
    -- l. 604
    rotorR := x.Rtip * Num.cos precone + precurveTip * Num.sin precone
    -- ll. 607-610
    nSector := if tilt == 0 && yaw == 0 && x.shearExp == 0 then 1 else max 4 x.nSector
    inv := none, pitch := none, saved := none }

/-- The station-dependent arguments of the private methods. -/
structure Sec (α : Type) where
  r : α
  chord : α
  theta : α
  af : AirfoilI α
  Vx : α
  Vy : α

/-- Result of `__runBEM` (ccblade.py l. 632). -/
structure BemOut (α : Type) where
  fzero : α
  a : α
  ap : α
  cl : α
  cd : α

/-- One pass of the loop of `__runBEM` (ccblade.py ll. 625-630). -/
def bemPass (R : Rotor α) (pitch phi : α) (x : Sec α) (a ap : α) : BemOut α :=
  let w := relativeWind phi a ap x.Vx x.Vy pitch x.chord x.theta R.rho R.mu
  let c := x.af.evaluate w.alpha w.Re
  let i := inductionFactors x.r x.chord R.Rhub R.Rtip phi c.1 c.2 R.B x.Vx x.Vy R.opts
  ⟨i.fzero, i.a, i.ap, c.1, c.2⟩

/-- `k` further passes. -/
def bemPasses (R : Rotor α) (pitch phi : α) (x : Sec α) : ℕ → BemOut α → BemOut α
  | 0, o => o
  | k + 1, o => bemPasses R pitch phi x k (bemPass R pitch phi x o.a o.ap)

/-- `__runBEM` (ccblade.py ll. 617-632) for `iterRe ≥ 1`.  For `iterRe = 0` the results are unbound and the code raises
`UnboundLocalError`; this is checked in `solveStation`. -/
def runBEM (R : Rotor α) (pitch phi : α) (x : Sec α) : BemOut α :=
  bemPasses R pitch phi x (R.iterRe - 1) (bemPass R pitch phi x 0 0)

/-- `__errorFunction` (ccblade.py ll. 634-641) -/
def errFun (R : Rotor α) (pitch : α) (x : Sec α) (phi : α) : α := (runBEM R pitch phi x).fzero

/-- `__errorFunction_inverse`, `__runBEM_inverse` (ccblade.py ll. 643-663): every pass of the loop computes the same. -/
def errFunInv (R : Rotor α) (x : Sec α) (cl cd phi : α) : α :=
  (inductionFactors x.r x.chord R.Rhub R.Rtip phi cl cd R.B x.Vx x.Vy R.opts).fzero

/-- `epsilon` (ccblade.py l. 980) -/
def bemEps : α := Num.nat 1 / Num.nat 1000000

/-- The bracket handed to the root finder (ccblade.py ll. 979-991). -/
def bracket (errf : α → α) : α × α :=
  if 0 < errf bemEps * errf (Num.pi / Num.nat 2) then
    if errf (-Num.pi / Num.nat 4) < 0 ∧ 0 < errf (-bemEps) then (-Num.pi / Num.nat 4, -bemEps)
    else (Num.pi / Num.nat 2, Num.pi - bemEps)
  else (bemEps, Num.pi / Num.nat 2)

/-- `scipy.optimize.brentq(f, a, b)` with default options: a value or an exception. -/
abbrev RootFinder (α : Type) := (α → α) → α → α → Except PyErr α

/-- Solution of the residual equation at a station (ccblade.py ll. 977-999); the flag is the issued warning. -/
def solvePhi (bq : RootFinder α) (errf : α → α) : Except PyErr (α × Bool) :=
  let b := bracket errf
  match bq errf b.1 b.2 with
  | .ok phi => .ok (phi, false)
  | .error .valueError => .ok (0, true)
  | .error e => .error e

/-- Derivatives of residual and induction factors in the direction `j` of
`x = [phi, chord, theta, Vx, Vy, r, Rhub, Rtip, pitch]`: `__residualDerivatives` (ccblade.py ll. 665-715).  The
`ValueError` for `iterRe ≠ 1` is constructed but not raised (ll. 668-669). -/
def residualDerivatives (R : Rotor α) (pitch phi : α) (x : Sec α) (j : ℕ) : IndDvOut α :=
  let w := relativeWind phi 0 0 x.Vx x.Vy pitch x.chord x.theta R.rho R.mu
  -- l. 678
  let dalpha := if j = 0 then 1 else if j = 2 then -1 else if j = 8 then -1 else 0
  -- l. 679
  let dRe := if j = 1 then w.Re / x.chord else if j = 3 then w.Re * x.Vx / sq w.W
    else if j = 4 then w.Re * x.Vy / sq w.W else 0
  let c := x.af.evaluate w.alpha w.Re
  let dcl := x.af.dclda w.alpha w.Re * dalpha + x.af.dcldRe w.alpha w.Re * dRe
  let dcd := x.af.dcdda w.alpha w.Re * dalpha + x.af.dcddRe w.alpha w.Re * dRe
  inductionFactorsDv ⟨x.r, x.chord, R.Rhub, R.Rtip, phi, c.1, c.2, x.Vx, x.Vy⟩
    ⟨kron 5 j, kron 1 j, kron 6 j, kron 7 j, kron 0 j, dcl, dcd, kron 3 j, kron 4 j⟩ R.B R.opts

/-- Values returned by `__loads` (ccblade.py l. 808). -/
structure SecLoads (α : Type) where
  a : α
  ap : α
  Np : α
  Tp : α
  alpha : α
  cl : α
  cd : α
  cn : α
  ct : α
  q : α
  W : α
  Re : α

/-- Derivatives returned by `__loads`, in the nine directions of `x`. -/
structure SecDerivs (α : Type) where
  dNp : ℕ → α
  dTp : ℕ → α
  dR : ℕ → α

/-- The values computed by `__loads` when both wind components are nonzero (ccblade.py ll. 721-741). -/
def secValues (R : Rotor α) (pitch phi : α) (rotating : Bool) (x : Sec α) : SecLoads α :=
  let cphi := Num.cos phi
  let sphi := Num.sin phi
  let b := runBEM R pitch phi x
  let a := if rotating then b.a else 0
  let ap := if rotating then b.ap else 0
  let w := relativeWind phi a ap x.Vx x.Vy pitch x.chord x.theta R.rho R.mu
  let c := x.af.evaluate w.alpha w.Re
  let cl := if rotating then b.cl else c.1
  let cd := if rotating then b.cd else c.2
  let cn := cl * cphi + cd * sphi
  let ct := cl * sphi - cd * cphi
  let q := 1 / Num.nat 2 * R.rho * sq w.W
  ⟨a, ap, cn * q * x.chord, ct * q * x.chord, rad2deg w.alpha, cl, cd, cn, ct, q, w.W, w.Re⟩

/-- Derivatives computed by `__loads` from the values `v` (ccblade.py ll. 743-801).  The code also replaces `alpha`, `W`, `Re`
by the values returned by `relativewind_dv`, which are the same (`relativeWindDv_values`). -/
def secDerivs (R : Rotor α) (pitch phi : α) (rotating : Bool) (x : Sec α) (v : SecLoads α) : SecDerivs α :=
  let cphi := Num.cos phi
  let sphi := Num.sin phi
  let res := residualDerivatives R pitch phi x
  -- ll. 746-754
  let dR := fun j => if rotating then (res j).fzerod else if j = 0 then 1 else 0
  let da := fun j => if rotating then (res j).ad else 0
  let dap := fun j => if rotating then (res j).apd else 0
  let dphi := fun j => if rotating then kron 0 j else (0 : α)
  -- ll. 757-781
  let w := fun j => relativeWindDv ⟨phi, v.a, v.ap, x.Vx, x.Vy, pitch, x.chord, x.theta⟩
    ⟨kron 0 j, da j, dap j, kron 3 j, kron 4 j, kron 8 j, kron 1 j, kron 2 j⟩ R.rho R.mu
  -- ll. 784-792
  let alpha := (w 0).alpha
  let Re := (w 0).Re
  let dcl := fun j => x.af.dclda alpha Re * (w j).alphad + x.af.dcldRe alpha Re * (w j).Red
  let dcd := fun j => x.af.dcdda alpha Re * (w j).alphad + x.af.dcddRe alpha Re * (w j).Red
  let dcn := fun j => dcl j * cphi - v.cl * sphi * dphi j + dcd j * sphi + v.cd * cphi * dphi j
  let dct := fun j => dcl j * sphi + v.cl * cphi * dphi j - dcd j * cphi + v.cd * sphi * dphi j
  let W := (w 0).W
  -- ll. 798-799
  { dNp := fun j => v.Np * (1 / v.cn * dcn j + Num.nat 2 / W * (w j).Wd + 1 / x.chord * kron 1 j)
    dTp := fun j => v.Tp * (1 / v.ct * dct j + Num.nat 2 / W * (w j).Wd + 1 / x.chord * kron 1 j)
    dR := dR }

/-- `__loads` (ccblade.py ll. 717-812).  Without `derivatives` the code returns `None` for the three derivative vectors
(zero vectors when a wind component is zero); they are not used then. -/
def secLoads (R : Rotor α) (pitch phi : α) (rotating : Bool) (x : Sec α) :
    Except PyErr (SecLoads α × SecDerivs α) :=
  if !(x.Vx == 0) && !(x.Vy == 0) then
    let v := secValues R pitch phi rotating x
    if R.derivatives && (v.cn == 0 || v.W == 0 || x.chord == 0) then .error .valueError
    else .ok (v, secDerivs R pitch phi rotating x v)
  else .ok (⟨0, 0, 0, 0, 0, 0, 0, 0, 0, 0, 0, 0⟩, ⟨fun _ => 0, fun _ => 0, fun _ => 0⟩)

/-- What the loop over the blade stores for one station. -/
structure Station (α : Type) where
  phi : α
  warned : Bool
  theta : α
  loads : SecLoads α
  /-- `DNp_Dx`, `DTp_Dx` (ccblade.py ll. 1047-1048) -/
  dNp : ℕ → α
  dTp : ℕ → α

/-- The arguments of the private methods at station `i`, with twist `theta`. -/
def stationSec (R : Rotor α) (V : ℕ → α × α) (i : ℕ) (theta : α) : Sec α :=
  ⟨R.r i, R.chord i, theta, R.af i, (V i).1, (V i).2⟩

/-- `errf` with `args` (ccblade.py ll. 966-975) -/
def stationErrf (R : Rotor α) (pitch : α) (V : ℕ → α × α) (i : ℕ) : α → α :=
  match R.inv with
  | some d => errFunInv R (stationSec R V i (R.theta i)) (d.cl i) (d.cd i)
  | none => errFun R pitch (stationSec R V i (R.theta i))

/-- `phi_star` (ccblade.py ll. 963-999) and whether the warning was issued.  For `iterRe = 0` the results of the loop in
`__runBEM` are unbound. -/
def stationPhi (bq : RootFinder α) (R : Rotor α) (pitch Omega : α) (V : ℕ → α × α) (i : ℕ) : Except PyErr (α × Bool) :=
  if Omega == 0 then .ok (Num.pi / Num.nat 2, false)
  else if R.iterRe = 0 then .error .unboundLocal
  else solvePhi bq (stationErrf R pitch V i)

/-- `self.theta[i]` as seen by `__loads` (ccblade.py ll. 1003-1005) -/
def stationTheta (R : Rotor α) (pitch phi : α) (i : ℕ) : α :=
  match R.inv with
  | some d => phi - d.alpha i - pitch
  | none => R.theta i

/-- Body of the loop over the blade (ccblade.py ll. 963-1060) for the station `i`. -/
def solveStation (bq : RootFinder α) (R : Rotor α) (pitch Omega : α) (V : ℕ → α × α) (i : ℕ) :
    Except PyErr (Station α) :=
  match stationPhi bq R pitch Omega V i with
  | .error e => .error e
  | .ok (phi, warned) =>
    let theta := stationTheta R pitch phi i
    match secLoads R pitch phi (!(Omega == 0)) (stationSec R V i theta) with
    | .error e => .error e
    | .ok (l, d) =>
      -- ll. 1027-1034: the message uses `phi_lower`, unbound when not rotating
      if Num.isNaN l.Np && (Omega == 0) then .error .unboundLocal
      else .ok {
        phi := phi, warned := warned, theta := theta
        loads := if Num.isNaN l.Np then { l with a := 0, ap := 0, Np := 0, Tp := 0, alpha := 0 } else l
        -- ll. 1036-1048
        dNp := fun j => d.dNp (j + 1) - d.dNp 0 / d.dR 0 * d.dR (j + 1)
        dTp := fun j => d.dTp (j + 1) - d.dTp 0 / d.dR 0 * d.dR (j + 1) }

/-- The loop over the blade (ccblade.py l. 963): the stations in order, stopping at the first exception. -/
def solveStations (bq : RootFinder α) (R : Rotor α) (pitch Omega : α) (V : ℕ → α × α) :
    ℕ → Except PyErr (List (Station α))
  | 0 => .ok []
  | k + 1 => do
    let done ← solveStations bq R pitch Omega V k
    let s ← solveStation bq R pitch Omega V k
    return done ++ [s]

/-- `__windComponents` without derivatives (ccblade.py ll. 817-829). -/
def rotorWind (R : Rotor α) (Uinf Omega azimuth : α) (i : ℕ) : α × α :=
  windComponents R.n R.r R.precurve R.presweep R.precone R.yaw R.tilt azimuth Uinf Omega R.hubHt R.shearExp i

/-- `Vxd`, `Vyd` of `__windComponents` for direction `k` of
`y = [r, precurve, presweep, precone, tilt, hubHt, yaw, shear, azimuth, Uinf, Omega]` at station `i`
(ccblade.py ll. 834-861). -/
def rotorWindDv (R : Rotor α) (Uinf Omega azimuth : α) (k i : ℕ) : α × α :=
  let n := R.n
  let v := windComponentsDv n R.r R.precurve R.presweep (fun j => kron k j) (fun j => kron k (n + j))
    (fun j => kron k (2 * n + j))
    ⟨R.precone, R.yaw, R.tilt, azimuth, Uinf, Omega, R.hubHt, R.shearExp⟩
    ⟨kron k (3 * n), kron k (3 * n + 3), kron k (3 * n + 1), kron k (3 * n + 5), kron k (3 * n + 6),
      kron k (3 * n + 7), kron k (3 * n + 2), kron k (3 * n + 4)⟩ i
  (v.1.2, v.2.2)

/-- `dVx_dw`, `dVy_dw` (ccblade.py ll. 863-874), row `k` of
`w = [r, presweep, precone, tilt, hubHt, yaw, shear, azimuth, Uinf, Omega]`. -/
def windDw (R : Rotor α) (Uinf Omega azimuth : α) (k i : ℕ) : α × α :=
  if k = 0 then rotorWindDv R Uinf Omega azimuth i i
  else if k = 1 then rotorWindDv R Uinf Omega azimuth (2 * R.n + i) i
  else rotorWindDv R Uinf Omega azimuth (3 * R.n + (k - 2)) i

/-- `dVx_dcurve`, `dVy_dcurve` (ccblade.py ll. 866-867): row `k` is the curve station. -/
def windDcurve (R : Rotor α) (Uinf Omega azimuth : α) (k i : ℕ) : α × α :=
  rotorWindDv R Uinf Omega azimuth (R.n + k) i

/-- `zidx = [4, 0, 1, 5, 6, 7]` (ccblade.py l. 1052) -/
def zidx : ℕ → ℕ
  | 0 => 4
  | 1 => 0
  | 2 => 1
  | 3 => 5
  | 4 => 6
  | _ => 7

/-- `dNp_dX` (or `dTp_dX`) from the stations' total derivatives `D` and the wind derivatives (ccblade.py ll. 1052-1085):
rows `X = [r, chord, theta, Rhub, Rtip, presweep, precone, tilt, hubHt, yaw, shear, azimuth, Uinf, Omega, pitch]`. -/
def packX (D : ℕ → ℕ → α) (dw : ℕ → ℕ → α × α) (k i : ℕ) : α :=
  let dz := fun m => D i (zidx m)
  let dVx := D i 2
  let dVy := D i 3
  let dwRow := fun m => dVx * (dw m i).1 + dVy * (dw m i).2
  let row := if k = 0 then dz 0 + dwRow 0 else if k < 5 then dz k else if k < 14 then dwRow (k - 4) else dz 5
  -- ridx = [2, 6, 7, 9, 11, 14]
  if k = 2 ∨ k = 6 ∨ k = 7 ∨ k = 9 ∨ k = 11 ∨ k = 14 then row * (Num.pi / Num.nat 180) else row

/-- `dNp_dprecurve` (ccblade.py ll. 1069-1070): row `k` is the curve station. -/
def packCurve (D : ℕ → ℕ → α) (dc : ℕ → ℕ → α × α) (k i : ℕ) : α :=
  D i 2 * (dc k i).1 + D i 3 * (dc k i).2

/-- The dictionary `dNp` (or `dTp`) (ccblade.py ll. 1094-1134). -/
def loadDict (n : ℕ) (dX dcurve : ℕ → ℕ → α) : List (String × Mat α) :=
  [("dr", matDiag n (dX 0)), ("dchord", matDiag n (dX 1)), ("dtheta", matDiag n (dX 2)),
   ("dpresweep", matDiag n (dX 5)),
   ("dprecurve", ⟨n, n, fun i j => dcurve j i⟩),
   ("dRhub", matCol n (dX 3)), ("dRtip", matCol n (dX 4)), ("dprecone", matCol n (dX 6)),
   ("dtilt", matCol n (dX 7)), ("dhubHt", matCol n (dX 8)), ("dyaw", matCol n (dX 9)),
   ("dshear", matCol n (dX 10)), ("dazimuth", matCol n (dX 11)), ("dUinf", matCol n (dX 12)),
   ("dOmega", matCol n (dX 13)), ("dpitch", matCol n (dX 14))]

/-- Result of `distributedAeroLoads`: the stations of the dictionary `loads`, and `derivs` when requested. -/
structure LoadsOut (α : Type) where
  stations : List (Station α)
  dNp : List (String × Mat α)
  dTp : List (String × Mat α)

/-- An array of the result (`loads["Np"]`, ...). -/
def stationArr (s : List (Station α)) (f : SecLoads α → α) (i : ℕ) : α := ((s[i]?).map (fun x => f x.loads)).getD 0

/-- The total derivatives collected over the blade. -/
def stationD (s : List (Station α)) (f : Station α → ℕ → α) (i k : ℕ) : α := ((s[i]?).map (fun x => f x k)).getD 0

/-- The Jacobians saved by `distributedAeroLoads` (ccblade.py ll. 1063-1092). -/
def loadJac (R : Rotor α) (Uinf Omega azimuth : α) (s : List (Station α)) : LoadJac α :=
  let dw := windDw R Uinf Omega azimuth
  let dc := windDcurve R Uinf Omega azimuth
  ⟨packX (stationD s Station.dNp) dw, packX (stationD s Station.dTp) dw,
   packCurve (stationD s Station.dNp) dc, packCurve (stationD s Station.dTp) dc⟩

/-- `distributedAeroLoads` (ccblade.py ll. 878-1153): the object after the call and the result.  In the inverse analysis
`self.theta` is replaced (ll. 957, 1004); after an exception part of the new array is left undefined by the model. -/
def distributedAeroLoads (bq : RootFinder α) (R : Rotor α) (Uinf Omega pitchDeg azimuthDeg : α) :
    Rotor α × Except PyErr (LoadsOut α) :=
  let pitch := deg2rad pitchDeg
  let azimuth := deg2rad azimuthDeg
  let R1 := { R with pitch := some pitch }
  match solveStations bq R pitch Omega (rotorWind R Uinf Omega azimuth) R.n with
  | .error e => (R1, .error e)
  | .ok s =>
    let R2 := match R.inv with
      | some _ => { R1 with theta := fun i => ((s[i]?).map Station.theta).getD 0 }
      | none => R1
    if R.derivatives then
      let J := loadJac R Uinf Omega azimuth s
      ({ R2 with saved := some J },
        .ok ⟨s, loadDict R.n J.dNp_dX J.dNp_dprecurve, loadDict R.n J.dTp_dX J.dTp_dprecurve⟩)
    else (R2, .ok ⟨s, [], []⟩)

/-- The derivatives of one blade integral by `__thrustTorqueDeriv` (ccblade.py ll. 1490-1734) for the reverse seed `w`:
`s = [precone, tilt, hubHt, Rhub, Rtip, precurvetip, presweeptip, yaw, shear, Uinf, Omega, pitch]`,
`v = [r, chord, theta, precurve, presweep]`.  The code repeats the same lines for the five seeds. -/
structure TTJac (α : Type) where
  ds : ℕ → α
  dv : ℕ → ℕ → α

def ttDeriv (R : Rotor α) (Np Tp : ℕ → α) (J : LoadJac α) (w : TTSeed α) : TTJac α :=
  let g := thrustTorqueBv R.n Np Tp R.r R.precurve R.presweep R.precone R.Rhub R.Rtip R.precurveTip R.presweepTip w
  -- ll. 1532-1536
  let dX := fun k i => g.npb i * J.dNp_dX k i + g.tpb i * J.dTp_dX k i
  let sumX := fun k => sumTo R.n (dX k)
  { ds := fun k => match k with
      | 0 => sumX 6 + deg2rad g.preconeb
      | 1 => sumX 7
      | 2 => sumX 8
      | 3 => sumX 3 + g.rhubb
      | 4 => sumX 4 + g.rtipb
      | 5 => g.precurvetipb
      | 6 => g.presweeptipb
      | 7 => sumX 9
      | 8 => sumX 10
      | 9 => sumX 12
      | 10 => sumX 13
      | _ => sumX 14
    dv := fun k i => match k with
      | 0 => dX 0 i + g.rb i
      | 1 => dX 1 i
      | 2 => dX 2 i
      -- ll. 1605-1609: `axis=1` sums over the load stations
      | 3 => sumTo R.n (fun j => g.npb j * J.dNp_dprecurve i j + g.tpb j * J.dTp_dprecurve i j) + g.precurveb i
      | _ => dX 5 i + g.presweepb i }

/-- The seeds `Tb, Yb, Zb, Qb, Mb` (ccblade.py ll. 1509-1513). -/
def seedT : TTSeed α := ⟨1, 0, 0, 0, 0⟩
def seedY : TTSeed α := ⟨0, 1, 0, 0, 0⟩
def seedZ : TTSeed α := ⟨0, 0, 1, 0, 0⟩
def seedQ : TTSeed α := ⟨0, 0, 0, 1, 0⟩
def seedM : TTSeed α := ⟨0, 0, 0, 0, 1⟩

/-- One of the accumulated outputs of `evaluate`: value, `d_ds`, `d_dv`. -/
structure Quant (α : Type) where
  val : α
  ds : ℕ → α
  dv : ℕ → ℕ → α

/-- `np.zeros` -/
def Quant.zero : Quant α := ⟨0, fun _ => 0, fun _ _ => 0⟩

/-- `q += f(x)` applied to the value and to all derivatives. -/
def Quant.add (q x : Quant α) : Quant α :=
  ⟨q.val + x.val, fun k => q.ds k + x.ds k, fun k i => q.dv k i + x.dv k i⟩

/-- the same arithmetic on the value and on all derivatives -/
def Quant.map2 (f : α → α → α) (x y : Quant α) : Quant α :=
  ⟨f x.val y.val, fun k => f (x.ds k) (y.ds k), fun k i => f (x.dv k i) (y.dv k i)⟩

/-- Accumulators of one operating condition (ccblade.py ll. 1243-1268). -/
structure RotorAcc (α : Type) where
  T : Quant α
  Y : Quant α
  Z : Quant α
  Q : Quant α
  My : Quant α
  Mz : Quant α
  Mb : Quant α
  W : Option (ℕ → α)

def RotorAcc.zero : RotorAcc α := ⟨.zero, .zero, .zero, .zero, .zero, .zero, .zero, none⟩

/-- Contribution of one azimuth (ccblade.py ll. 1274-1325).  The derivatives are accumulated in the same way as the values;
without `derivatives` they are not computed, and stay zero in the model. -/
def sectorStep (R : Rotor α) (azimuth : α) (L : LoadsOut α) (acc : RotorAcc α) : RotorAcc α :=
  let ca := Num.cos azimuth
  let sa := Num.sin azimuth
  let Np := stationArr L.stations SecLoads.Np
  let Tp := stationArr L.stations SecLoads.Tp
  let t := thrustTorque R.n Np Tp R.r R.precurve R.presweep R.precone R.Rhub R.Rtip R.precurveTip R.presweepTip
  let q := fun (val : α) (w : TTSeed α) => match (if R.derivatives then R.saved else none) with
    | some J => let d := ttDeriv R Np Tp J w; (⟨val, d.ds, d.dv⟩ : Quant α)
    | none => ⟨val, fun _ => 0, fun _ _ => 0⟩
  let T := q t.T seedT
  let Y := q t.Y seedY
  let Z := q t.Z seedZ
  let Q := q t.Q seedQ
  let M := q t.M seedM
  let B := Num.nat R.B
  let ns := Num.nat R.nSector
  { T := acc.T.add (T.map2 (fun x _ => B * x / ns) T)
    Y := acc.Y.add (Y.map2 (fun y z => B * (y * ca - z * sa) / ns) Z)
    Z := acc.Z.add (Z.map2 (fun z y => B * (z * ca + y * sa) / ns) Y)
    Q := acc.Q.add (Q.map2 (fun x _ => B * x / ns) Q)
    My := acc.My.add (M.map2 (fun x _ => B * x * ca / ns) M)
    Mz := acc.Mz.add (M.map2 (fun x _ => B * x * sa / ns) M)
    Mb := acc.Mb.add (M.map2 (fun x _ => x / ns) M)
    W := some (stationArr L.stations SecLoads.W) }

/-- Loop over the azimuth angles (ccblade.py ll. 1273-1325). -/
def sectorLoop (bq : RootFinder α) (Uinf Omega pitch : α) :
    List α → Rotor α → RotorAcc α → Rotor α × Except PyErr (RotorAcc α)
  | [], R, acc => (R, .ok acc)
  | az :: rest, R, acc =>
    match distributedAeroLoads bq R Uinf Omega pitch (rad2deg az) with
    | (R', .error e) => (R', .error e)
    | (R', .ok L) => sectorLoop bq Uinf Omega pitch rest R' (sectorStep R' az L acc)

/-- `np.linspace(0.0, 2*np.pi, nsec + 1)[:-1]` (ccblade.py l. 1270) -/
def azimuthAngles (nsec : ℕ) : List α := arr nsec fun i => Num.nat i * (Num.nat 2 * Num.pi / Num.nat nsec) + 0

/-- One operating condition. -/
structure Cond (α : Type) where
  Uinf : α
  Omega : α
  pitch : α

/-- Loop over the operating conditions (ccblade.py ll. 1271-1325). -/
def condLoop (bq : RootFinder α) : List (Cond α) → Rotor α → Rotor α × Except PyErr (List (RotorAcc α))
  | [], R => (R, .ok [])
  | c :: rest, R =>
    match sectorLoop bq c.Uinf c.Omega c.pitch (azimuthAngles R.nSector) R .zero with
    | (R', .error e) => (R', .error e)
    | (R', .ok acc) =>
      match condLoop bq rest R' with
      | (R'', .error e) => (R'', .error e)
      | (R'', .ok l) => (R'', .ok (acc :: l))

/-- Power and its derivatives (ccblade.py ll. 1328-1336) -/
def power (Q : Quant α) (Omega : α) : Quant α :=
  { val := Q.val * Omega * Num.pi / Num.nat 30
    ds := fun k =>
      if k = 10 then Q.ds k * Omega * Num.pi / Num.nat 30 + Q.val * Num.pi / Num.nat 30
      else Q.ds k * Omega * Num.pi / Num.nat 30
    dv := fun k i => Q.dv k i * Omega * Num.pi / Num.nat 30 }

/-- The coefficients of one condition with their derivatives. -/
structure Coefs (α : Type) where
  CP : Quant α
  CT : Quant α
  CY : Quant α
  CZ : Quant α
  CQ : Quant α
  CMy : Quant α
  CMz : Quant α
  CMb : Quant α

/-- `dR_ds` (ccblade.py ll. 1376-1390) -/
def dRds (R : Rotor α) (k : ℕ) : α :=
  if k = 0 then deg2rad (-R.Rtip * Num.sin R.precone + R.precurveTip * Num.cos R.precone)
  else if k = 4 then Num.cos R.precone
  else if k = 5 then Num.sin R.precone
  else 0

/-- Nondimensional outputs and their derivatives (ccblade.py ll. 1360-1424). -/
def coefs (R : Rotor α) (c : Cond α) (a : RotorAcc α) : Coefs α :=
  let U := c.Uinf
  let q := 1 / Num.nat 2 * R.rho * sq U
  let A := Num.pi * sq R.rotorR
  let P := power a.Q c.Omega
  let dR := dRds R
  let dA := fun k => Num.nat 2 * Num.pi * R.rotorR * dR k
  let dU := fun k => (if k = 9 then 1 else 0 : α)
  let dOmega := fun k => (if k = 10 then 1 else 0 : α)
  let dq := fun k => R.rho * U * dU k
  let force := fun (x : Quant α) =>
    ({ val := x.val / (q * A)
       ds := fun k => x.val / (q * A) * (x.ds k / x.val - dA k / A - dq k / q)
       dv := fun k i => x.dv k i / (q * A) } : Quant α)
  let moment := fun (x : Quant α) =>
    ({ val := x.val / (q * R.rotorR * A)
       ds := fun k => x.val / (q * R.rotorR * A) * (x.ds k / x.val - dA k / A - dq k / q - dR k / R.rotorR)
       dv := fun k i => x.dv k i / (q * R.rotorR * A) } : Quant α)
  let CP := P.val / (q * A * U)
  { CP := { val := CP
            ds := fun k => CP * (a.Q.ds k / a.Q.val + dOmega k / c.Omega - dA k / A - dq k / q - dU k / U)
            dv := fun k i => a.Q.dv k i * CP / a.Q.val }
    CT := force a.T, CY := force a.Y, CZ := force a.Z
    CQ := moment a.Q, CMy := moment a.My, CMz := moment a.Mz, CMb := moment a.Mb }

/-- `__thrustTorqueDictionary` (ccblade.py ll. 1736-1923) for one output, over the `npts` conditions. -/
def rotorDict (n : ℕ) (qs : List (Quant α)) : List (String × Mat α) :=
  let npts := qs.length
  let s := fun i k => ((qs[i]?).map (fun q => q.ds k)).getD 0
  let v := fun i k j => ((qs[i]?).map (fun q => q.dv k j)).getD 0
  let col := fun k => matCol npts (fun i => s i k)
  let dia := fun k => matDiag npts (fun i => s i k)
  let vec := fun k => (⟨npts, n, fun i j => v i k j⟩ : Mat α)
  [("dprecone", col 0), ("dtilt", col 1), ("dhubHt", col 2), ("dRhub", col 3), ("dRtip", col 4),
   ("dprecurveTip", col 5), ("dpresweepTip", col 6), ("dyaw", col 7), ("dshear", col 8),
   ("dUinf", dia 9), ("dOmega", dia 10), ("dpitch", dia 11),
   ("dr", vec 0), ("dchord", vec 1), ("dtheta", vec 2), ("dprecurve", vec 3), ("dpresweep", vec 4)]

/-- Result of `evaluate` for one condition. -/
structure CondOut (α : Type) where
  acc : RotorAcc α
  P : Quant α
  C : Option (Coefs α)

/-- Result of `evaluate`. -/
structure EvalOut (α : Type) where
  conds : List (CondOut α)
  W : ℕ → α

/-- `evaluate` (ccblade.py ll. 1155-1488) on a list of conditions (arrays `Uinf`, `Omega`, `pitch` of equal length).
With no condition the variable `W` is unbound at l. 1458.  The derivative dictionaries are `rotorDict` of the listed
quantities. -/
def evaluate (bq : RootFinder α) (R : Rotor α) (cs : List (Cond α)) (coefficients : Bool) :
    Rotor α × Except PyErr (EvalOut α) :=
  match condLoop bq cs R with
  | (R', .error e) => (R', .error e)
  | (R', .ok accs) =>
    match accs.getLast?.bind RotorAcc.W with
    | none => (R', .error .unboundLocal)
    | some W =>
      (R', .ok ⟨List.zipWith (fun c a => ⟨a, power a.Q c.Omega, if coefficients then some (coefs R c a) else none⟩) cs accs,
        W⟩)

end Verif
