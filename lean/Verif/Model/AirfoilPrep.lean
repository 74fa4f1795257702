import Verif.Model.Py

/-!
# Model of `ccblade/airfoilprep.py`

Arrays are lists.  `np.polyfit(x, y, 1)` is a parameter.  The attributes `cdmax`, `A`, `B`, `cm0` that `extrapolate` leaves on
the polar are written before they are read in every call; they are local values of the model.  Plotting is not modelled.
-/

namespace Verif

/-- `class Polar` (airfoilprep.py ll. 30-58); angles in degrees. -/
structure Polar (α : Type) where
  Re : α
  alpha : List α
  cl : List α
  cd : List α
  cm : List α

variable {α : Type} [Num α]

/-- `x + weight * (y - x)` elementwise (airfoilprep.py ll. 96-98) -/
def lerps (w : α) (xs ys : List α) : List α := List.zipWith (fun x y => x + w * (y - x)) xs ys

/-- `Polar.blend` (airfoilprep.py ll. 60-100) -/
def Polar.blend (p o : Polar α) (w : α) : Except PyErr (Polar α) := do
  let merged := npUnion p.alpha o.alpha
  let minAlpha := nmax (← npMin p.alpha) (← npMin o.alpha)
  let maxAlpha := nmin (← npMax p.alpha) (← npMax o.alpha)
  let alpha := merged.filter (fun a => minAlpha ≤ a ∧ a ≤ maxAlpha)
  let cl1 ← npInterps alpha p.alpha p.cl
  let cl2 ← npInterps alpha o.alpha o.cl
  let cd1 ← npInterps alpha p.alpha p.cd
  let cd2 ← npInterps alpha o.alpha o.cd
  let cm1 ← npInterps alpha p.alpha p.cm
  let cm2 ← npInterps alpha o.alpha o.cm
  return ⟨p.Re + w * (o.Re - p.Re), alpha, lerps w cl1 cl2, lerps w cd1 cd2, lerps w cm1 cm2⟩

/-- `np.polyfit(x, y, 1)`: slope and intercept of the fitted line. -/
abbrev PolyFit (α : Type) := List (α × α) → Except PyErr (α × α)

/-- The arguments of `correction3D` (airfoilprep.py l. 102). -/
structure Corr3D (α : Type) where
  rOverR : α
  chordOverR : α
  tsr : α
  alphaMaxCorr : α
  alphaLinearMin : α
  alphaLinearMax : α

/-- `fcl`, `fcd` for the exponent `e` (airfoilprep.py ll. 156-159) -/
def corrFactor (m c e : α) : α :=
  1 / m * (Num.nat 16 / Num.nat 10 * c / (Num.nat 1267 / Num.nat 10000) * (1 - Num.pow c e) / (1 + Num.pow c e) - 1)

/-- `adj` (airfoilprep.py ll. 162-163), angles in radians -/
def corrAdj (alphaMax a : α) : α :=
  if a ≤ alphaMax then 1 else sq ((Num.pi / Num.nat 2 - a) / (Num.pi / Num.nat 2 - alphaMax))

/-- `Polar.correction3D` (airfoilprep.py ll. 102-180).  `cl`, `cd` are assumed to have the length of
`alpha`. -/
def Polar.correction3D (fit : PolyFit α) (p : Polar α) (x : Corr3D α) : Except PyErr (Polar α) := do
  let alpha := p.alpha.map deg2rad
  let alphaMax := deg2rad x.alphaMaxCorr
  let alphaLo := deg2rad x.alphaLinearMin
  let alphaHi := deg2rad x.alphaLinearMax
  -- ll. 145-147
  let lam := x.tsr / Num.pow (1 + sq x.tsr) (1 / Num.nat 2)
  let expon := 1 / lam / x.rOverR
  let exponD := 1 / lam / x.rOverR / Num.nat 2
  -- ll. 150-153
  let pq ← fit ((alpha.zip p.cl).filter (fun q => alphaLo ≤ q.1 ∧ q.1 ≤ alphaHi))
  let m := pq.1
  let alpha0 := -pq.2 / m
  let fcl := corrFactor m x.chordOverR expon
  let fcd := corrFactor m x.chordOverR exponD
  -- ll. 166-172
  let cl3 := List.zipWith (fun a c => c + fcl * (m * (a - alpha0) - c) * corrAdj alphaMax a) alpha p.cl
  let cd0 ← npInterps [0] alpha p.cd
  let cd3 := List.zipWith (fun c c0 => c + fcd * (c - c0)) p.cd (List.replicate p.cd.length (cd0.headD 0))
  return ⟨p.Re, alpha.map rad2deg, cl3, cd3, p.cm⟩

/-- The attributes `cdmax`, `A`, `B` used by `__Viterna`. -/
structure VitPar (α : Type) where
  cdmax : α
  A : α
  B : α

/-- `__Viterna` at one angle (airfoilprep.py ll. 328-338) -/
def viterna (v : VitPar α) (clAdj alpha : α) : α × α :=
  let a := npMaximum alpha (Num.nat 1 / Num.nat 10000)
  let cl := v.cdmax / Num.nat 2 * Num.sin (Num.nat 2 * a) + v.A * sq (Num.cos a) / Num.sin a
  (cl * clAdj, v.cdmax * sq (Num.sin a) + v.B * Num.cos a)

/-- One point of the extrapolated curves: angle (radians), lift, drag. -/
structure ExtRow (α : Type) where
  alpha : α
  cl : α
  cd : α

/-- The values read off the ends of the data (airfoilprep.py ll. 228-235). -/
structure Ends (α : Type) where
  alphaHigh : α
  clHigh : α
  cdHigh : α
  alphaLow : α
  clLow : α
  cdLow : α

/-- `cl_adj` (airfoilprep.py l. 220) -/
def clAdj : α := Num.nat 7 / Num.nat 10

/-- `self.A`, `self.B` (airfoilprep.py ll. 245-248) -/
def vitPar (e : Ends α) (cdmax : α) : VitPar α :=
  let sa := Num.sin e.alphaHigh
  let ca := Num.cos e.alphaHigh
  ⟨cdmax, (e.clHigh - cdmax * sa * ca) * sa / sq ca, (e.cdHigh - cdmax * sa * sa) / ca⟩

/-- `alpha1`: from the end of the data to 90 degrees (airfoilprep.py ll. 251-253) -/
def ext1 (v : VitPar α) (e : Ends α) (n : ℕ) : List (ExtRow α) :=
  ((npLinspace e.alphaHigh (Num.pi / Num.nat 2) n).drop 1).map fun a =>
    ⟨a, (viterna v 1 a).1, (viterna v 1 a).2⟩

/-- `alpha2`: from 90 degrees to `180 - alpha_high` (airfoilprep.py ll. 256-258) -/
def ext2 (v : VitPar α) (e : Ends α) (n : ℕ) : List (ExtRow α) :=
  ((npLinspace (Num.pi / Num.nat 2) (Num.pi - e.alphaHigh) n).drop 1).map fun a =>
    ⟨a, (viterna v (-clAdj) (Num.pi - a)).1, (viterna v (-clAdj) (Num.pi - a)).2⟩

/-- `alpha3`: from `180 - alpha_high` to 180 degrees (airfoilprep.py ll. 261-264) -/
def ext3 (v : VitPar α) (e : Ends α) (n : ℕ) : List (ExtRow α) :=
  ((npLinspace (Num.pi - e.alphaHigh) Num.pi n).drop 1).map fun a =>
    ⟨a, (a - Num.pi) / e.alphaHigh * e.clHigh * clAdj, (viterna v 1 (Num.pi - a)).2⟩

/-- `alpha4`: from `-alpha_high` to the start of the data, empty when the data start at or below `-alpha_high`
(airfoilprep.py ll. 266-277); the slice is `[1:-2]`. -/
def ext4 (e : Ends α) (n : ℕ) : List (ExtRow α) :=
  if e.alphaLow ≤ -e.alphaHigh then []
  else
    (((npLinspace (-e.alphaHigh) e.alphaLow n).take (n - 2)).drop 1).map fun a =>
      ⟨a, -e.clHigh * clAdj + (a + e.alphaHigh) / (e.alphaLow + e.alphaHigh) * (e.clLow + e.clHigh * clAdj),
       e.cdLow + (a - e.alphaLow) / (-e.alphaHigh - e.alphaLow) * (e.cdHigh - e.cdLow)⟩

/-- `alpha5max` (airfoilprep.py ll. 270, 278) -/
def alpha5max (e : Ends α) : α := if e.alphaLow ≤ -e.alphaHigh then e.alphaLow else -e.alphaHigh

/-- `alpha5`: from -90 degrees to `alpha5max` (airfoilprep.py ll. 281-283) -/
def ext5 (v : VitPar α) (e : Ends α) (n : ℕ) : List (ExtRow α) :=
  ((npLinspace (-Num.pi / Num.nat 2) (alpha5max e) n).drop 1).map fun a =>
    ⟨a, (viterna v (-clAdj) (-a)).1, (viterna v (-clAdj) (-a)).2⟩

/-- `alpha6`: from `-180 + alpha_high` to -90 degrees (airfoilprep.py ll. 286-288) -/
def ext6 (v : VitPar α) (e : Ends α) (n : ℕ) : List (ExtRow α) :=
  ((npLinspace (-Num.pi + e.alphaHigh) (-Num.pi / Num.nat 2) n).drop 1).map fun a =>
    ⟨a, (viterna v clAdj (a + Num.pi)).1, (viterna v clAdj (a + Num.pi)).2⟩

/-- `alpha7`: from -180 to `-180 + alpha_high` (airfoilprep.py ll. 291-293) -/
def ext7 (v : VitPar α) (e : Ends α) (n : ℕ) : List (ExtRow α) :=
  (npLinspace (-Num.pi) (-Num.pi + e.alphaHigh) n).map fun a =>
    ⟨a, (a + Num.pi) / e.alphaHigh * e.clHigh * clAdj, (viterna v 1 (a + Num.pi)).2⟩

/-- The blocks before the data (airfoilprep.py ll. 295-297). -/
def extBefore (v : VitPar α) (e : Ends α) (n : ℕ) : List (ExtRow α) := ext7 v e n ++ ext6 v e n ++ ext5 v e n ++ ext4 e n

/-- The blocks after the data (airfoilprep.py ll. 295-297). -/
def extAfter (v : VitPar α) (e : Ends α) (n : ℕ) : List (ExtRow α) := ext1 v e n ++ ext2 v e n ++ ext3 v e n

/-- Search loop of `__CMCoeff` (airfoilprep.py ll. 345-350) over rows `(alpha, cl, cm)`. -/
def zeroLiftCm : List (α × α × α) → Option α
  | a :: b :: rest =>
    if nabs a.1 < Num.nat 20 ∧ a.2.1 ≤ 0 ∧ 0 ≤ b.2.1 then
      some (a.2.2 + -a.2.1 / (b.2.1 - a.2.1) * (b.2.2 - a.2.2))
    else zeroLiftCm (b :: rest)
  | _ => none

/-- `self.cm0` (airfoilprep.py ll. 343-355) -/
def cmZero (rows : List (α × α × α)) : Except PyErr α :=
  match zeroLiftCm rows with
  | some c => .ok c
  | none =>
    match rows with
    | a :: b :: _ => .ok (a.2.2 + -a.2.1 / (b.2.1 - a.2.1) * (b.2.2 - a.2.2))
    | _ => .error .indexError

/-- `__CMCoeff` (airfoilprep.py ll. 356-359) given `cm0` -/
def cmCoeff (e : Ends α) (cmHigh cm0 : α) : α :=
  let XM := (-cmHigh + cm0) / (e.clHigh * Num.cos e.alphaHigh + e.cdHigh * Num.sin e.alphaHigh)
  (XM - Num.nat 1 / Num.nat 4) / ntan (e.alphaHigh - Num.pi / Num.nat 2)

/-- Outcomes of `__getCM`: `None`, a value, or the printed complaint (which then returns 0). -/
inductive CmOut (α : Type)
  | keep
  | value (v : α)
  | complaint

/-- The table near ±180 degrees (airfoilprep.py ll. 380-397) -/
def cmTable (a : α) : CmOut α :=
  if a == Num.nat 165 then .value (-(Num.nat 4 / Num.nat 10))
  else if a == Num.nat 170 then .value (-(Num.nat 5 / Num.nat 10))
  else if a == Num.nat 175 then .value (-(Num.nat 25 / Num.nat 100))
  else if a == Num.nat 180 then .value 0
  else if a == -Num.nat 165 then .value (Num.nat 35 / Num.nat 100)
  else if a == -Num.nat 170 then .value (Num.nat 4 / Num.nat 10)
  else if a == -Num.nat 175 then .value (Num.nat 2 / Num.nat 10)
  else if a == -Num.nat 180 then .value 0
  else .complaint

/-- `__getCM` at the angle `a` (degrees) with extended lift and drag (airfoilprep.py ll. 361-398) -/
def getCM (cmCoef cm0 lowDeg highDeg a cl cd : α) : CmOut α :=
  if lowDeg ≤ a ∧ a ≤ highDeg then .keep
  else if -Num.nat 165 < a ∧ a < Num.nat 165 then
    if nabs a < Num.nat 1 / Num.nat 100 then .value cm0
    else if 0 < a then
      let x := cmCoef * ntan (deg2rad a - Num.pi / Num.nat 2) + Num.nat 1 / Num.nat 4
      .value (cm0 - x * (cl * Num.cos (deg2rad a) + cd * Num.sin (deg2rad a)))
    else
      let x := cmCoef * ntan (-deg2rad a - Num.pi / Num.nat 2) + Num.nat 1 / Num.nat 4
      .value (-(cm0 - x * (-cl * Num.cos (-deg2rad a) + cd * Num.sin (-deg2rad a))))
  else cmTable a

/-- New value of `cm_ext[i]` (airfoilprep.py ll. 320-324) -/
def CmOut.update (o : CmOut α) (old : α) : α :=
  match o with
  | .keep => old
  | .value v => v
  | .complaint => 0

/-- `alpha_cm1` (airfoilprep.py ll. 302, 304-305) -/
def cmGridLow (lowDeg : α) : List α :=
  let cm1 := Num.floor (lowDeg / Num.nat 10) * Num.nat 10
  npLinspace (-Num.nat 180) cm1 (Num.trunc ((-Num.nat 180 - cm1) / Num.nat 10 - 1)).natAbs

/-- `alpha_cm2` (airfoilprep.py ll. 303, 306); a negative number of points raises `ValueError`. -/
def cmGridHigh (highDeg : α) : Except PyErr (List α) :=
  let cm2 := nceil (highDeg / Num.nat 10) * Num.nat 10
  let k := Num.trunc ((Num.nat 180 - cm2) / Num.nat 10 + 1)
  if k < 0 then .error .valueError else .ok (npLinspace cm2 (Num.nat 180) k.toNat)

/-- The table `(alpha_cm, cm_ext)` (airfoilprep.py ll. 301-324); `ea`, `ecl`, `ecd` are the extrapolated angles (degrees), lift and
drag.  If the data arrays have different lengths the code raises `ValueError` or `IndexError`; the model leaves this to the final
interpolation. -/
def cmExtTable (p : Polar α) (e : Ends α) (lowDeg highDeg cmHigh : α) (ea ecl ecd : List α) :
    Except PyErr (List α × List α) := do
  let g1 := cmGridLow lowDeg
  let g2 ← cmGridHigh highDeg
  let grid := g1 ++ p.alpha ++ g2
  let cm := List.replicate g1.length 0 ++ p.cm ++ List.replicate g2.length 0
  if p.cm.any (fun c => !(c == 0)) then
    let cm0 ← cmZero (p.alpha.zip (p.cl.zip p.cm))
    let cl ← npInterps grid ea ecl
    let cd ← npInterps grid ea ecd
    let outs := List.zipWith (fun a (c : α × α) => getCM (cmCoeff e cmHigh cm0) cm0 lowDeg highDeg a c.1 c.2) grid (cl.zip cd)
    return (grid, List.zipWith (fun o old => CmOut.update o old) outs cm)
  else return (grid, cm)

/-- `cdmax` from the aspect ratio if that is given (airfoilprep.py ll. 223-224) -/
def cdmaxAR (cdmax0 : α) : Option α → α
  | some ar => Num.nat 111 / Num.nat 100 + Num.nat 18 / Num.nat 1000 * ar
  | none => cdmax0

/-- `Polar.extrapolate` (airfoilprep.py ll. 182-326); `AR = none` when not given. -/
def Polar.extrapolate (p : Polar α) (cdmax0 : α) (AR : Option α) (cdmin : α) (nalpha : ℕ) : Except PyErr (Polar α) := do
  if cdmin < 0 then throw .exception
  -- ll. 223-225
  let cdmax := nmax (← pyMax p.cd) (cdmaxAR cdmax0 AR)
  let highDeg ← pyLast p.alpha
  let clHigh ← pyLast p.cl
  let cdHigh ← pyLast p.cd
  let cmHigh ← pyLast p.cm
  let lowDeg ← pyFirst p.alpha
  let clLow ← pyFirst p.cl
  let cdLow ← pyFirst p.cd
  let e : Ends α := ⟨deg2rad highDeg, clHigh, cdHigh, deg2rad lowDeg, clLow, cdLow⟩
  -- ll. 237-242
  if Num.pi / Num.nat 2 < e.alphaHigh then throw .exception
  if e.alphaLow < -Num.pi / Num.nat 2 then throw .exception
  let v := vitPar e cdmax
  let before := extBefore v e nalpha
  let after := extAfter v e nalpha
  let alpha := before.map ExtRow.alpha ++ p.alpha.map deg2rad ++ after.map ExtRow.alpha
  let cl := before.map ExtRow.cl ++ p.cl ++ after.map ExtRow.cl
  let cd := (before.map ExtRow.cd ++ p.cd ++ after.map ExtRow.cd).map (fun c => npMaximum c cdmin)
  let alphaDeg := alpha.map rad2deg
  let t ← cmExtTable p e lowDeg highDeg cmHigh alphaDeg cl cd
  let cm ← npInterps alphaDeg t.1 t.2
  return ⟨p.Re, alphaDeg, cl, cd, cm⟩

/-- `class Airfoil` (airfoilprep.py ll. 515-532). -/
structure AfSet (α : Type) where
  polars : List (Polar α)

/-- `Airfoil.__init__` (airfoilprep.py ll. 518-532): sorted (stably) by Reynolds number; `polars[0]` of an empty list raises. -/
def AfSet.build (ps : List (Polar α)) : Except PyErr (AfSet α) :=
  match ps with
  | [] => .error .indexError
  | _ :: _ => .ok ⟨ps.insertionSort (fun p q => p.Re ≤ q.Re)⟩

/-- `np.searchsorted(l, x)` for a sorted list: the number of elements below `x` -/
def searchsorted (l : List α) (x : α) : ℕ := (l.takeWhile (fun y => y < x)).length

/-- `Airfoil.getPolar` (airfoilprep.py ll. 596-628) -/
def AfSet.getPolar (af : AfSet α) (Re : α) : Except PyErr (Polar α) := do
  let p0 ← pyFirst af.polars
  let p1 ← pyLast af.polars
  if Re ≤ p0.Re then return p0
  else if p1.Re ≤ Re then return p1
  else
    let i := searchsorted (af.polars.map Polar.Re) Re
    match af.polars[i - 1]?, af.polars[i]? with
    | some a, some b => a.blend b ((Re - a.Re) / (b.Re - a.Re))
    | _, _ => throw .indexError

/-- `Airfoil.blend` (airfoilprep.py ll. 630-666) -/
def AfSet.blend (af other : AfSet α) (w : α) : Except PyErr (AfSet α) := do
  let Relist := npUnion (af.polars.map Polar.Re) (other.polars.map Polar.Re)
  let ps ← Relist.mapM fun Re => do
    let p1 ← af.getPolar Re
    let p2 ← other.getPolar Re
    p1.blend p2 w
  AfSet.build ps

/-- `Airfoil.correction3D` (airfoilprep.py ll. 668-704) -/
def AfSet.correction3D (fit : PolyFit α) (af : AfSet α) (x : Corr3D α) : Except PyErr (AfSet α) := do
  AfSet.build (← af.polars.mapM fun p => p.correction3D fit x)

/-- `Airfoil.extrapolate` (airfoilprep.py ll. 706-734); `nalpha` has its default 15. -/
def AfSet.extrapolate (af : AfSet α) (cdmax : α) (AR : Option α) (cdmin : α) : Except PyErr (AfSet α) := do
  AfSet.build (← af.polars.mapM fun p => p.extrapolate cdmax AR cdmin 15)

/-- One polar on a new grid (airfoilprep.py ll. 757-760) -/
def Polar.onGrid (p : Polar α) (alpha : List α) : Except PyErr (Polar α) := do
  let cl ← npInterps alpha p.alpha p.cl
  let cd ← npInterps alpha p.alpha p.cd
  let cm ← npInterps alpha p.alpha p.cm
  return ⟨p.Re, alpha, cl, cd, cm⟩

/-- `Airfoil.interpToCommonAlpha` (airfoilprep.py ll. 736-762) -/
def AfSet.interpToCommonAlpha (af : AfSet α) (alpha : Option (List α)) : Except PyErr (AfSet α) := do
  let grid := match alpha with
    | some a => a
    | none => af.polars.foldl (fun acc p => npUnion acc p.alpha) []
  AfSet.build (← af.polars.mapM fun p => p.onGrid grid)

/-- Result of `createDataGrid`. -/
structure DataGrid (α : Type) where
  alpha : List α
  Re : List α
  cl : Mat α
  cd : Mat α
  cm : Mat α

/-- `Airfoil.createDataGrid` (airfoilprep.py ll. 807-844).  The polars of `interpToCommonAlpha` have columns of the length of the
grid, so the column assignments conform. -/
def AfSet.createDataGrid (af : AfSet α) : Except PyErr (DataGrid α) := do
  let a ← af.interpToCommonAlpha none
  let p0 ← pyFirst a.polars
  let alpha := p0.alpha
  let Re := a.polars.map Polar.Re
  let mat := fun (f : Polar α → List α) => (⟨alpha.length, Re.length,
    fun i j => ((a.polars[j]?).bind (fun p => (f p)[i]?)).getD 0⟩ : Mat α)
  return ⟨alpha, Re, mat Polar.cl, mat Polar.cd, mat Polar.cm⟩

end Verif
