import Verif.Model.CCBlade

/-!
# Arrays of whole numbers

`CCBlade.__init__` copies the arrays it is given (`np.array(r).copy()`, `precurve.copy()`, `presweep.copy()`; ccblade.py ll. 554-585) and
then assigns single entries (ll. 591-598).  A copy keeps the element type: a list of Python ints or an integer array stays an array of
64-bit integers, and numpy converts a double assigned to an entry by truncation towards zero, silently.  `Model/CCBlade.lean` describes
arrays of doubles; here the same lines for arrays of either type.

Not affected: `chord`, `theta`, the operating conditions and all airfoil data, to whose entries nothing is assigned (`np.deg2rad` returns
doubles); `precurve` and `presweep` given as Python *lists*, whose copies are lists and keep the assigned value (type `float` below).
Conversion of NaN and of numbers beyond 64 bits is not described.
-/

namespace Verif

/-- Element type of a numpy array -/
inductive Dtype where
  | float
  | int

variable {α : Type} [Num α]

/-- The value kept by an entry of an array to which a double is assigned -/
def Dtype.store : Dtype → α → α
  | .float, v => v
  | .int, v => intc (Num.trunc v)

/-- Element types of the arrays `r`, `precurve`, `presweep` as passed -/
structure ArgTypes where
  r : Dtype
  precurve : Dtype
  presweep : Dtype

/-- `CCBlade.__init__` (ccblade.py ll. 554-614) for arrays of the given types; compare `CCArgs.build`. -/
def CCArgs.buildTyped (t : ArgTypes) (x : CCArgs α) : Except PyErr (Rotor α) := do
  let precone := deg2rad x.precone
  let tilt := deg2rad x.tilt
  let yaw := deg2rad x.yaw
  -- ll. 574-580: missing arrays are made by `np.zeros`, of doubles
  let precurve := x.precurve.getD (fun _ => 0)
  let curveType := if x.precurve.isNone then .float else t.precurve
  let precurveTip := if x.precurve.isNone then 0 else x.precurveTip
  let presweep := x.presweep.getD (fun _ => 0)
  let sweepType := if x.presweep.isNone then .float else t.presweep
  let presweepTip := if x.presweep.isNone then 0 else x.presweepTip
  if x.n = 0 then throw .indexError
  -- ll. 588-590: `/` of integer arrays gives doubles
  let last := x.n - 1
  let r_nd := fun i => (x.r i - x.r 0) / (x.r last - x.r 0)
  let m0 := if x.n = 1 then r_nd 0 else (r_nd 0 + r_nd 1) / Num.nat 2
  let m1 := if x.n = 1 then r_nd 0 else (r_nd (x.n - 2) + r_nd last) / Num.nat 2
  let nd_hub := npMinimum (Num.nat 1 / Num.nat 100) m0
  let nd_tip := npMaximum (Num.nat 99 / Num.nat 100) m1
  -- ll. 591-598
  let hubSample ← npInterp nd_hub (arr x.n fun i => (r_nd i, x.r i))
  let r1 := if x.Rhub == x.r 0 then setAt x.r 0 (t.r.store hubSample) else x.r
  let tipSample ← npInterp nd_tip (arr x.n fun i => (r_nd i, x.r i))
  let r2 := if x.Rtip == x.r last then setAt r1 last (t.r.store tipSample) else r1
  let curveSample ← npInterp nd_tip (arr x.n fun i => (r_nd i, precurve i))
  let precurve' := if precurveTip == precurve last then setAt precurve last (curveType.store curveSample) else precurve
  let sweepSample ← npInterp nd_tip (arr x.n fun i => (r_nd i, presweep i))
  let presweep' := if presweepTip == presweep last then setAt presweep last (sweepType.store sweepSample) else presweep
  return {
    n := x.n, r := r2, chord := x.chord, theta := fun i => deg2rad (x.theta i), af := x.af
    Rhub := x.Rhub, Rtip := x.Rtip, B := x.B, rho := x.rho, mu := x.mu
    precone := precone, tilt := tilt, yaw := yaw, shearExp := x.shearExp, hubHt := x.hubHt
    opts := ⟨x.usecd, x.hubloss, x.tiploss, x.wakerotation⟩
    iterRe := x.iterRe, derivatives := x.derivatives
    precurve := precurve', precurveTip := precurveTip, presweep := presweep', presweepTip := presweepTip
    -- l. 604
    rotorR := x.Rtip * Num.cos precone + precurveTip * Num.sin precone
    -- ll. 607-610
    nSector := if tilt == 0 && yaw == 0 && x.shearExp == 0 then 1 else max 4 x.nSector
    inv := none, pitch := none, saved := none }

/-- `self.theta[i]` as seen by `__loads` (ccblade.py ll. 957, 1003-1005): in the inverse analysis `self.theta` is
`np.zeros_like(self.r)`, of the element type of the radii. -/
def stationThetaTyped (t : Dtype) (R : Rotor α) (pitch phi : α) (i : ℕ) : α :=
  match R.inv with
  | some d => t.store (phi - d.alpha i - pitch)
  | none => R.theta i

/-- Body of the loop over the blade (ccblade.py ll. 963-1060) for radii of the given type; compare `solveStation`. -/
def solveStationTyped (t : Dtype) (bq : RootFinder α) (R : Rotor α) (pitch Omega : α) (V : ℕ → α × α) (i : ℕ) :
    Except PyErr (Station α) :=
  match stationPhi bq R pitch Omega V i with
  | .error e => .error e
  | .ok (phi, warned) =>
    let theta := stationThetaTyped t R pitch phi i
    match secLoads R pitch phi (!(Omega == 0)) (stationSec R V i theta) with
    | .error e => .error e
    | .ok (l, d) =>
      if Num.isNaN l.Np && (Omega == 0) then .error .unboundLocal
      else .ok {
        phi := phi, warned := warned, theta := theta
        loads := if Num.isNaN l.Np then { l with a := 0, ap := 0, Np := 0, Tp := 0, alpha := 0 } else l
        dNp := fun j => d.dNp (j + 1) - d.dNp 0 / d.dR 0 * d.dR (j + 1)
        dTp := fun j => d.dTp (j + 1) - d.dTp 0 / d.dR 0 * d.dR (j + 1) }

end Verif
