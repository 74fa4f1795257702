import Verif.Model.AirfoilPrep
import Verif.Model.CCBlade

/-!
# Model of `class CCAirfoil` of `ccblade/ccblade.py`

The bivariate smoothing spline of scipy (`RectBivariateSpline`, `bisplev`) is a parameter.  `af_flap_coords`, which runs an
external program on temporary files, is not modelled.
-/

namespace Verif

variable {α : Type} [Num α]

/-! ## numpy helpers -/

/-- The loop of `np.argmin`: `best` at index `at`, next index `i`; stops at a NaN -/
def argminFrom (best : α) (at_ i : ℕ) : List α → ℕ
  | [] => at_
  | x :: l => if Num.isNaN best then at_ else if best ≤ x then argminFrom best at_ (i + 1) l else argminFrom x i (i + 1) l

/-- `np.argmin(l)`: the first index of the least element -/
def npArgmin : List α → Except PyErr ℕ
  | [] => .error .valueError
  | x :: l => .ok (argminFrom x 0 1 l)

/-- The loop of `np.argmax` -/
def argmaxFrom (best : α) (at_ i : ℕ) : List α → ℕ
  | [] => at_
  | x :: l => if Num.isNaN best then at_ else if x ≤ best then argmaxFrom best at_ (i + 1) l else argmaxFrom x i (i + 1) l

/-- `np.argmax(l)`: the first index of the largest element -/
def npArgmax : List α → Except PyErr ℕ
  | [] => .error .valueError
  | x :: l => .ok (argmaxFrom x 0 1 l)

/-- `l[i]` for an index `0 ≤ i` -/
def pyGet {β : Type} (l : List β) (i : ℕ) : Except PyErr β :=
  match l[i]? with
  | none => .error .indexError
  | some a => .ok a

/-- `l[lo:hi]` for indices `0 ≤ lo`, `0 ≤ hi` -/
def pySlice {β : Type} (l : List β) (lo hi : ℕ) : List β := (l.drop lo).take (hi - lo)

/-- `np.argmin(abs(l - x))` -/
def nearest (l : List α) (x : α) : Except PyErr ℕ := npArgmin (l.map fun a => nabs (a - x))

/-- `np.c_[m, m]` -/
def matTwice (m : Mat α) : Mat α := ⟨m.rows, m.cols + m.cols, fun i j => if j < m.cols then m.get i j else m.get i (j - m.cols)⟩

/-- `np.gradient(f, x)`; one-sided at the ends; `ValueError` for fewer than two points.  (For evenly spaced points numpy uses
the equivalent formula `(f[i+1] - f[i-1]) / (2 h)`.) -/
def npGradient (f x : List α) : Except PyErr (List α) :=
  if f.length < 2 then .error .valueError
  else .ok (arr f.length fun i =>
    if i = 0 then (f.getD 1 0 - f.getD 0 0) / (x.getD 1 0 - x.getD 0 0)
    else if i + 1 = f.length then (f.getD i 0 - f.getD (i - 1) 0) / (x.getD i 0 - x.getD (i - 1) 0)
    else
      let d1 := x.getD i 0 - x.getD (i - 1) 0
      let d2 := x.getD (i + 1) 0 - x.getD i 0;
      -d2 / (d1 * (d1 + d2)) * f.getD (i - 1) 0 + (d2 - d1) / (d1 * d2) * f.getD i 0 + d1 / (d2 * (d1 + d2)) * f.getD (i + 1) 0)

/-- `np.gradient(f)` -/
def npGradient1 (f : List α) : Except PyErr (List α) :=
  if f.length < 2 then .error .valueError
  else .ok (arr f.length fun i =>
    if i = 0 then f.getD 1 0 - f.getD 0 0
    else if i + 1 = f.length then f.getD i 0 - f.getD (i - 1) 0
    else (f.getD (i + 1) 0 - f.getD (i - 1) 0) / Num.nat 2)

/-- `max(np.abs(np.gradient(f)))` -/
def maxGrad (f : List α) : Except PyErr α := do pyMax ((← npGradient1 f).map nabs)

/-! ## The airfoil object -/

/-- What the class uses of a fitted spline: `ev(x, y)`, `bisplev(x, y, tck, dx=1, dy=0)`, `bisplev(x, y, tck, dx=0, dy=1)`. -/
structure Spline (α : Type) where
  ev : α → α → α
  dx : α → α → Except PyErr α
  dy : α → α → Except PyErr α

/-- `RectBivariateSpline(x, y, z, kx, ky, s)` -/
abbrev SplineFit (α : Type) := List α → List α → Mat α → ℕ → ℕ → α → Except PyErr (Spline α)

/-- Attributes of a `CCAirfoil` (ccblade.py ll. 43-94); `alpha` in radians. -/
structure CCAf (α : Type) where
  alpha : List α
  oneRe : Bool
  cl : Spline α
  cd : Spline α
  cm : Option (Spline α)

/-- `CCAirfoil.__init__` (ccblade.py ll. 43-94).  A one-dimensional table is a matrix with one column, an omitted `cm` a
matrix with no rows. -/
def CCAf.build (fit : SplineFit α) (alphaDeg Re : List α) (cl cd cm : Mat α) : Except PyErr (CCAf α) := do
  let alpha := alphaDeg.map deg2rad
  let one := Re.length < 2
  let useCm := 0 < cm.rows
  let Re' := if one then [Num.nat 10, Num.nat (10 ^ 15)] else Re
  let cl' := if one then matTwice cl else cl
  let cd' := if one then matTwice cd else cd
  let cm' := if one then matTwice cm else cm
  if alpha.length < 2 then throw .valueError
  let kx := min (alpha.length - 1) 3
  let ky := min (Re'.length - 1) 3
  let scl ← fit alpha Re' cl' kx ky (Num.nat 1 / Num.nat 10)
  let scd ← fit alpha Re' cd' kx ky (Num.nat 1 / Num.nat 1000)
  if useCm then
    let scm ← fit alpha Re' cm' kx ky (Num.nat 1 / Num.nat 10000)
    return ⟨alpha, one, scl, scd, some scm⟩
  else return ⟨alpha, one, scl, scd, none⟩

/-- `CCAirfoil.initFromAerodynFile` (ccblade.py ll. 96-111) after the file has been read. -/
def CCAf.ofAirfoil (fit : SplineFit α) (af : AfSet α) : Except PyErr (CCAf α) := do
  let g ← af.createDataGrid
  CCAf.build fit g.alpha g.Re g.cl g.cd g.cm

/-- `CCAirfoil.evaluate` (ccblade.py ll. 177-206); the third component is the moment if requested and available. -/
def CCAf.evaluate (af : CCAf α) (alpha Re : α) (returnCm : Bool) : α × α × Option α :=
  (af.cl.ev alpha Re, af.cd.ev alpha Re, if returnCm then af.cm.map (fun s => s.ev alpha Re) else none)

/-- The `try` block of `derivatives` (ccblade.py ll. 221-226) -/
def reDerivs (cl cd : Spline α) (alpha Re : α) : α × α :=
  match cl.dy alpha Re, cd.dy alpha Re with
  | .ok a, .ok b => (a, b)
  | _, _ => (0, 0)

/-- `CCAirfoil.derivatives` (ccblade.py ll. 208-227): `dcl_dalpha, dcl_dRe, dcd_dalpha, dcd_dRe` -/
def CCAf.derivatives (af : CCAf α) (alpha Re : α) : Except PyErr (α × α × α × α) := do
  let a ← af.cl.dx alpha Re
  let b ← af.cd.dx alpha Re
  if af.oneRe then return (a, 0, b, 0)
  else return (a, (reDerivs af.cl af.cd alpha Re).1, b, (reDerivs af.cl af.cd alpha Re).2)

/-- The search grid of `max_eff`, `awayfromstall` (ccblade.py ll. 119-120, 131): 201 angles from -20 to 40 degrees. -/
def searchGrid : List α := (npLinspace (-Num.nat 20) (Num.nat 40) 201).map deg2rad

/-- The cylinder test (ccblade.py ll. 121-124): whether `alpha[i_start:i_end]` is empty -/
def CCAf.isCylinder (af : CCAf α) : Except PyErr Bool := do
  let i0 ← nearest af.alpha (deg2rad (-Num.nat 20))
  let i1 ← nearest af.alpha (deg2rad (Num.nat 40))
  return (pySlice af.alpha i0 i1).isEmpty

/-- Results of `max_eff`, `awayfromstall`. -/
structure AfPoint (α : Type) where
  eff : α
  alpha : α
  cl : α
  cd : α

/-- `CCAirfoil.max_eff` (ccblade.py ll. 113-144) -/
def CCAf.maxEff (af : CCAf α) (Re : α) : Except PyErr (AfPoint α) := do
  if ← af.isCylinder then
    return ⟨af.cl.ev 0 Re / af.cd.ev 0 Re, 0, af.cl.ev 0 Re, af.cd.ev 0 Re⟩
  else
    let cl := searchGrid.map fun a => af.cl.ev a Re
    let cd := searchGrid.map fun a => af.cd.ev a Re
    let eff := List.zipWith (fun x y => x / y) cl cd
    let i ← npArgmax eff
    return ⟨← pyGet eff i, ← pyGet searchGrid i, ← pyGet cl i, ← pyGet cd i⟩

/-- `CCAirfoil.awayfromstall` (ccblade.py ll. 146-175); `margin` in degrees -/
def CCAf.awayFromStall (af : CCAf α) (Re margin : α) : Except PyErr (AfPoint α) := do
  let alphaOp ← do
    if ← af.isCylinder then pure 0
    else
      let i ← npArgmax (searchGrid.map fun a => af.cl.ev a Re)
      let s ← pyGet searchGrid i
      pure (s - deg2rad margin)
  return ⟨af.cl.ev alphaOp Re / af.cd.ev alphaOp Re, alphaOp, af.cl.ev alphaOp Re, af.cd.ev alphaOp Re⟩

/-! ## Unsteady parameters -/

/-- The loop of `find_breakpoint` (ccblade.py ll. 272-279): `i` counts, `(brk, diff)` are `idx_break`, `lin_diff`. -/
def breakLoop (multi : α) : List (α × α) → ℕ → ℕ → α → ℕ
  | [], _, brk, _ => brk
  | (fit, y) :: l, i, brk, diff =>
    let d := if multi == 0 then nabs (y - fit) else multi * (y - fit)
    if diff < d then breakLoop multi l (i + 1) i d else breakLoop multi l (i + 1) brk diff

/-- `find_breakpoint` (ccblade.py ll. 268-281) -/
def findBreakpoint (x y : List α) (lo hi : ℕ) (multi : α) : Except PyErr ℕ := do
  let x0 ← pyGet x lo
  let x1 ← pyGet x hi
  let y0 ← pyGet y lo
  let y1 ← pyGet y hi
  let fit ← npInterps (pySlice x lo hi) [x0, x1] [y0, y1]
  return breakLoop multi (fit.zip (pySlice y lo hi)) 0 0 0 + lo

/-- The indices of the strict local minima of `t` (ccblade.py ll. 291-297); for an empty `t` the two masks are `[True]`. -/
def localMinima (t : List α) : List ℕ :=
  (List.range (max t.length 1)).filter fun i =>
    (i = 0 ∨ t.getD i 0 < t.getD (i - 1) 0) ∧ (t.length ≤ i + 1 ∨ t.getD i 0 < t.getD (i + 1) 0)

/-- The last local minimum of `cm[lo:hi]` as an index into `cm` (ccblade.py ll. 290-298, 311-319) -/
def lastMin (cm : List α) (lo hi : ℕ) : Except PyErr ℕ := do
  return (← pyLast (localMinima (pySlice cm lo hi))) + lo

/-- The computed entries of the dictionary `unsteady`; the constant entries are omitted. -/
structure Unsteady (α : Type) where
  alpha0 : α
  Cd0 : α
  Cm0 : α
  Cn1 : α
  Cn2 : α
  Cnalpha : α
  alpha1 : α
  alpha2 : α

/-- `alpha0`, `Cd0`, `Cm0` (ccblade.py ll. 237-250) -/
def zeroLift (alpha cl cd cm : List α) (lo hi : ℕ) : Except PyErr (α × α × α) := do
  let g ← maxGrad cl
  if 0 < g then
    let c := pySlice cl lo hi
    return (← npInterp 0 (c.zip (pySlice alpha lo hi)), ← npInterp 0 (c.zip (pySlice cd lo hi)),
      ← npInterp 0 (c.zip (pySlice cm lo hi)))
  else
    return (0, ← pyGet cd (← nearest alpha 0), 0)

/-- `cn` (ccblade.py l. 235) -/
def cnCurve (alpha cl cd : List α) : List α :=
  List.zipWith (fun a p => p.1 * Num.cos (deg2rad a) + p.2 * Num.sin (deg2rad a)) alpha (cl.zip cd)

/-- `CCAirfoil.eval_unsteady` (ccblade.py ll. 229-363) for arrays of equal length -/
def evalUnsteady (alpha cl cd cm : List α) : Except PyErr (Unsteady α) := do
  let cn := cnCurve alpha cl cd
  let lo ← nearest alpha (-Num.nat 30)
  let hi ← nearest alpha (Num.nat 30)
  let (alpha0, Cd0, Cm0) ← zeroLift alpha cl cd cm lo hi
  let i0 ← nearest alpha alpha0
  let g ← maxGrad cm
  if Num.nat 1 / Num.nat (10 ^ 10) < g then
    let a0 ← pyGet alpha i0
    let hi1 ← nearest alpha (a0 + Num.nat 35)
    let hi2 ← lastMin cm lo hi1
    let iCn1 ← findBreakpoint alpha cm i0 hi2 1
    let Cn1 ← pyGet cn iCn1
    let a1 ← pyGet alpha iCn1
    let lo2 ← nearest alpha ((a0 + a1) / Num.nat 2 - Num.nat 30)
    let _ ← lastMin cm lo2 hi2
    let iCn2 ← findBreakpoint alpha cm lo2 i0 0
    let Cn2 ← pyGet cn iCn2
    let grad ← npGradient (pySlice cn i0 iCn1) (pySlice (alpha.map deg2rad) i0 iCn1)
    let Cnalpha ← pyMax grad
    let lo3 ← nearest alpha 0
    let iA1 ← findBreakpoint alpha cd lo3 iCn1 (-1)
    let alpha1 ← pyGet alpha iA1
    return ⟨alpha0, Cd0, Cm0, Cn1, Cn2, Cnalpha, alpha1, -1 * alpha1⟩
  else
    return ⟨alpha0, Cd0, Cm0, 0, 0, 0, 0, -1 * 0⟩

end Verif
