import Verif.Model.CCAirfoil
import Verif.Model.CSystem

/-!
# Model of `ccblade/ccblade_component.py`

The components are modelled by their `compute` and `compute_partials` methods.  Arrays of length one that OpenMDAO passes for
scalar inputs are modelled by scalars.  A Jacobian is the list of the assignments to its blocks; a block that is declared and
never assigned keeps the value zero.  `scipy.interpolate.PchipInterpolator` is a parameter.
-/

namespace Verif

variable {α : Type} [Num α]

/-! ## Jacobians -/

/-- A Jacobian: blocks by output and input -/
abbrev Jac (α : Type) := List ((String × String) × Mat α)

/-- `J[out, inp][i, j]` -/
def Jac.at (J : Jac α) (out inp : String) (i j : ℕ) : α :=
  match J.lookup (out, inp) with
  | some m => m.get i j
  | none => 0

/-- `d[key]` -/
def dictGet (d : List (String × Mat α)) (key : String) : Except PyErr (Mat α) :=
  match d.lookup key with
  | some m => .ok m
  | none => .error .keyError

/-- `-m` -/
def Mat.neg (m : Mat α) : Mat α := ⟨m.rows, m.cols, fun i j => -m.get i j⟩

/-- The assignments `J[out, inp] = f(d[key])` for pairs `(inp, key)`, in order -/
def jacBlocks (out : String) (f : Mat α → Mat α) (d : List (String × Mat α)) : List (String × String) → Except PyErr (Jac α)
  | [] => .ok []
  | (inp, key) :: rest => do
    let m ← dictGet d key
    return ((out, inp), f m) :: (← jacBlocks out f d rest)

/-! ## `CCBladeGeometry` -/

/-- Inputs (ccblade_component.py ll. 46-49); `n` is the option `n_span` -/
structure GeomIn (α : Type) where
  n : ℕ
  Rtip : α
  precurve : ℕ → α
  presweep : ℕ → α
  precone : α

/-- Outputs (ccblade_component.py ll. 51-54) -/
structure GeomOut (α : Type) where
  R : α
  diameter : α
  precurveTip : α
  presweepTip : α

/-- `cosd`, `sind` (ccblade_component.py ll. 8-9) -/
def cosd (x : α) : α := Num.cos (deg2rad x)
def sind (x : α) : α := Num.sin (deg2rad x)

/-- `CCBladeGeometry.compute` (ccblade_component.py ll. 64-72) -/
def GeomIn.compute (x : GeomIn α) : Except PyErr (GeomOut α) :=
  if x.n = 0 then .error .indexError
  else
    let pc := x.precurve (x.n - 1)
    let ps := x.presweep (x.n - 1)
    let R := x.Rtip * cosd x.precone + pc * sind x.precone
    .ok ⟨R, R * Num.nat 2, pc, ps⟩

/-- A block with the only entry `v` at row 0, column `n - 1` (`rows=[0], cols=[n_span - 1]`) -/
def lastEntry (n : ℕ) (v : α) : Mat α := ⟨1, n, fun _ j => if j = n - 1 then v else 0⟩

/-- A block with one row and one column -/
def scalarBlock (v : α) : Mat α := ⟨1, 1, fun _ _ => v⟩

/-- `CCBladeGeometry.setup`, `compute_partials` (ccblade_component.py ll. 56-62, 74-85) -/
def GeomIn.partials (x : GeomIn α) : Except PyErr (Jac α) :=
  if x.n = 0 then .error .indexError
  else
    let pc := x.precurve (x.n - 1)
    let dRdc := sind x.precone
    let dRdRtip := cosd x.precone
    let dRdcone := (-x.Rtip * sind x.precone + pc * cosd x.precone) * Num.pi / Num.nat 180
    .ok [(("precurveTip", "precurve_in"), lastEntry x.n 1), (("presweepTip", "presweep_in"), lastEntry x.n 1),
      (("R", "precurve_in"), lastEntry x.n dRdc), (("R", "Rtip"), scalarBlock dRdRtip), (("R", "precone"), scalarBlock dRdcone),
      (("diameter", "precurve_in"), lastEntry x.n (Num.nat 2 * dRdc)), (("diameter", "Rtip"), scalarBlock (Num.nat 2 * dRdRtip)),
      (("diameter", "precone"), scalarBlock (Num.nat 2 * dRdcone))]

/-! ## The airfoils of a component -/

/-- Tabulated airfoils of the blade: `airfoils_aoa`, `airfoils_Re`, `airfoils_cl[i, a, k, t]`, ... -/
structure AfTables (α : Type) where
  nAoa : ℕ
  nRe : ℕ
  nTab : ℕ
  aoa : ℕ → α
  Re : ℕ → α
  cl : ℕ → ℕ → ℕ → ℕ → α
  cd : ℕ → ℕ → ℕ → ℕ → α
  cm : ℕ → ℕ → ℕ → ℕ → α

/-- `table[i, :, :, tab]` -/
def AfTables.slice (T : AfTables α) (q : ℕ → ℕ → ℕ → ℕ → α) (tab i : ℕ) : Mat α := ⟨T.nAoa, T.nRe, fun a k => q i a k tab⟩

/-- `CCAirfoil(inputs["airfoils_aoa"], inputs["airfoils_Re"], inputs["airfoils_cl"][i, :, :, tab], ...)`
(ccblade_component.py ll. 301-307) -/
def AfTables.airfoil (fit : SplineFit α) (T : AfTables α) (tab i : ℕ) : Except PyErr (CCAf α) :=
  if T.nTab ≤ tab then .error .indexError
  else CCAf.build fit (arr T.nAoa T.aoa) (arr T.nRe T.Re) (T.slice T.cl tab i) (T.slice T.cd tab i) (T.slice T.cm tab i)

/-- The loop over the span that builds the airfoils (ccblade_component.py ll. 299-307, 537-555, 799-807, 877-885) -/
def AfTables.airfoils (fit : SplineFit α) (T : AfTables α) (tab : ℕ) : ℕ → Except PyErr (List (CCAf α))
  | 0 => .ok []
  | k + 1 => do
    let done ← T.airfoils fit tab k
    let a ← T.airfoil fit tab k
    return done ++ [a]

/-- The airfoil as seen by the blade element analysis; a failing derivative would end the analysis and is given the value 0
here. -/
def CCAf.toI (af : CCAf α) : AirfoilI α where
  evaluate a Re := ((af.evaluate a Re false).1, (af.evaluate a Re false).2.1)
  dclda a Re := match af.derivatives a Re with | .ok d => d.1 | .error _ => 0
  dcldRe a Re := match af.derivatives a Re with | .ok d => d.2.1 | .error _ => 0
  dcdda a Re := match af.derivatives a Re with | .ok d => d.2.2.1 | .error _ => 0
  dcddRe a Re := match af.derivatives a Re with | .ok d => d.2.2.2 | .error _ => 0

/-- The list `af` as used by `CCBlade` -/
def afList (l : List (CCAf α)) (i : ℕ) : AirfoilI α :=
  match l[i]? with
  | some a => a.toI
  | none => ⟨fun _ _ => (0, 0), fun _ _ => 0, fun _ _ => 0, fun _ _ => 0, fun _ _ => 0⟩

/-- Inputs shared by the components that run the blade element analysis. -/
structure BladeIn (α : Type) where
  n : ℕ
  r : ℕ → α
  chord : ℕ → α
  Rhub : α
  Rtip : α
  hub_height : α
  precone : α
  tilt : α
  yaw : α
  precurve : ℕ → α
  precurveTip : α
  presweep : ℕ → α
  presweepTip : α
  af : AfTables α
  nBlades : ℕ
  rho : α
  mu : α
  shearExp : α
  nSector : ℕ
  tiploss : Bool
  hubloss : Bool
  wakerotation : Bool
  usecd : Bool

/-- The constructor call `CCBlade(...)` with all arguments given (ccblade_component.py ll. 558-582, 809-834, 887-912). -/
def BladeIn.args (x : BladeIn α) (theta : ℕ → α) (afs : List (CCAf α)) (derivatives : Bool) : CCArgs α where
  n := x.n
  r := x.r
  chord := x.chord
  theta := theta
  af := afList afs
  Rhub := x.Rhub
  Rtip := x.Rtip
  B := x.nBlades
  rho := x.rho
  mu := x.mu
  precone := x.precone
  tilt := x.tilt
  yaw := x.yaw
  shearExp := x.shearExp
  hubHt := x.hub_height
  nSector := x.nSector
  precurve := some x.precurve
  precurveTip := x.precurveTip
  presweep := some x.presweep
  presweepTip := x.presweepTip
  tiploss := x.tiploss
  hubloss := x.hubloss
  wakerotation := x.wakerotation
  usecd := x.usecd
  iterRe := 1
  derivatives := derivatives

/-! ## `CCBladeLoads` -/

/-- Inputs of `CCBladeLoads` (ccblade_component.py ll. 184-216).  The component has no presweep inputs: those two fields of
`blade` are not read. -/
structure LoadsIn (α : Type) where
  blade : BladeIn α
  theta : ℕ → α
  V_load : α
  Omega_load : α
  pitch_load : α
  azimuth_load : α

/-- Outputs of `CCBladeLoads` (ccblade_component.py ll. 219-222) -/
structure LoadsCompOut (α : Type) where
  loads_r : ℕ → α
  loads_Px : ℕ → α
  loads_Py : ℕ → α
  loads_Pz : ℕ → α

/-- The attribute `derivs` of the component; `none` before the first successful `compute` -/
structure LoadsState (α : Type) where
  n : ℕ
  derivs : Option (List (String × Mat α) × List (String × Mat α))

/-- The constructor call of `CCBladeLoads.compute` (ccblade_component.py ll. 309-332): presweep is omitted. -/
def LoadsIn.args (x : LoadsIn α) (afs : List (CCAf α)) : CCArgs α :=
  { x.blade.args x.theta afs true with presweep := none, presweepTip := 0 }

/-- `CCBladeLoads.compute` (ccblade_component.py ll. 269-345): the component after the call and the outputs.  (`precurve` has
length `n_span`, so that the test `len(precurve) == 0` of l. 295 concerns empty blades only.) -/
def loadsCompute (fit : SplineFit α) (bq : RootFinder α) (S : LoadsState α) (x : LoadsIn α) :
    LoadsState α × Except PyErr (LoadsCompOut α) :=
  match x.blade.af.airfoils fit 0 x.blade.n with
  | .error e => (S, .error e)
  | .ok afs =>
    match (x.args afs).build with
    | .error e => (S, .error e)
    | .ok R =>
      match (distributedAeroLoads bq R x.V_load x.Omega_load x.pitch_load x.azimuth_load).2 with
      | .error e => (S, .error e)
      | .ok L =>
        let Np := stationArr L.stations SecLoads.Np
        let Tp := stationArr L.stations SecLoads.Tp
        (⟨x.blade.n, some (L.dNp, L.dTp)⟩, .ok ⟨x.blade.r, Np, fun i => -Tp i, fun _ => 0⟩)

/-- The inputs of the Jacobian of `CCBladeLoads` with the keys they are read from (ccblade_component.py ll. 351-365, 367-381) -/
def loadsKeys : List (String × String) :=
  [("r", "dr"), ("chord", "dchord"), ("theta", "dtheta"), ("Rhub", "dRhub"), ("Rtip", "dRtip"), ("hub_height", "dhubHt"),
   ("precone", "dprecone"), ("tilt", "dtilt"), ("yaw", "dyaw"), ("shearExp", "dshear"), ("V_load", "dUinf"),
   ("Omega_load", "dOmega"), ("pitch_load", "dpitch"), ("azimuth_load", "dazimuth"), ("precurve", "dprecurve")]

/-- `CCBladeLoads.compute_partials` (ccblade_component.py ll. 347-381) with the constant block of l. 266; the inputs are not
read. -/
def loadsPartials (S : LoadsState α) : Except PyErr (Jac α) :=
  match S.derivs with
  | none => .error .attributeError
  | some (dNp, dTp) => do
    let px ← jacBlocks "loads_Px" id dNp loadsKeys
    let py ← jacBlocks "loads_Py" Mat.neg dTp loadsKeys
    return (("loads_r", "r"), matDiag S.n fun _ => 1) :: (px ++ py)

/-! ## `CCBladeEvaluate` -/

/-- Inputs of `CCBladeEvaluate` (ccblade_component.py ll. 720-753) -/
structure EvalIn (α : Type) where
  blade : BladeIn α
  theta : ℕ → α
  V_load : α
  Omega_load : α
  pitch_load : α

/-- Outputs of `CCBladeEvaluate` (ccblade_component.py ll. 756-763) -/
structure EvalCompOut (α : Type) where
  P : α
  Mb : α
  Fhub : ℕ → α
  Mhub : ℕ → α
  CP : α
  CMb : α
  CFhub : ℕ → α
  CMhub : ℕ → α

/-- `np.array([a, b, c])` -/
def vec3 (a b c : α) : ℕ → α
  | 0 => a
  | 1 => b
  | _ => c

/-- The part shared by `compute` and `compute_partials` (ccblade_component.py ll. 769-836, 847-914): airfoils, rotor object and
the call of `evaluate` -/
def EvalIn.run (fit : SplineFit α) (bq : RootFinder α) (x : EvalIn α) (derivatives : Bool) : Except PyErr (EvalOut α) := do
  let afs ← x.blade.af.airfoils fit 0 x.blade.n
  let R ← (x.blade.args x.theta afs derivatives).build
  (evaluate bq R [⟨x.V_load, x.Omega_load, x.pitch_load⟩] true).2

/-- `CCBladeEvaluate.compute` (ccblade_component.py ll. 768-844) -/
def EvalIn.compute (fit : SplineFit α) (bq : RootFinder α) (x : EvalIn α) : Except PyErr (EvalCompOut α) := do
  let o ← x.run fit bq false
  let c ← pyFirst o.conds
  match c.C with
  | none => throw .keyError
  | some C =>
    return {
      P := c.P.val, Mb := c.acc.Mb.val, CP := C.CP.val, CMb := C.CMb.val
      Fhub := vec3 c.acc.T.val c.acc.Y.val c.acc.Z.val
      Mhub := vec3 c.acc.Q.val c.acc.My.val c.acc.Mz.val
      CFhub := vec3 C.CT.val C.CY.val C.CZ.val
      CMhub := vec3 C.CQ.val C.CMy.val C.CMz.val }

/-- The inputs of the Jacobian of `CCBladeEvaluate` with the keys they are read from (ccblade_component.py ll. 917-933; the
same lines are repeated for every output) -/
def evalKeys : List (String × String) :=
  [("r", "dr"), ("chord", "dchord"), ("theta", "dtheta"), ("Rhub", "dRhub"), ("Rtip", "dRtip"), ("hub_height", "dhubHt"),
   ("precone", "dprecone"), ("tilt", "dtilt"), ("yaw", "dyaw"), ("shearExp", "dshear"), ("V_load", "dUinf"),
   ("Omega_load", "dOmega"), ("pitch_load", "dpitch"), ("precurve", "dprecurve"), ("precurveTip", "dprecurveTip"),
   ("presweep", "dpresweep"), ("presweepTip", "dpresweepTip")]

/-- Three dictionaries with one row each combined into the rows of a block: `J[out, inp][k, :] = d[key]` -/
def stack3 (a b c : Mat α) : Mat α := ⟨3, a.cols, fun i j => vec3 (a.get 0 j) (b.get 0 j) (c.get 0 j) i⟩

/-- The assignments for an output with three rows -/
def jacBlocks3 (out : String) (a b c : List (String × Mat α)) : List (String × String) → Except PyErr (Jac α)
  | [] => .ok []
  | (inp, key) :: rest => do
    let ma ← dictGet a key
    let mb ← dictGet b key
    let mc ← dictGet c key
    return ((out, inp), stack3 ma mb mc) :: (← jacBlocks3 out a b c rest)

/-- `CCBladeEvaluate.compute_partials` (ccblade_component.py ll. 846-1218) -/
def EvalIn.partials (fit : SplineFit α) (bq : RootFinder α) (x : EvalIn α) : Except PyErr (Jac α) := do
  let o ← x.run fit bq true
  let c ← pyFirst o.conds
  let d := fun (q : CondOut α → Quant α) => rotorDict x.blade.n (o.conds.map q)
  match c.C with
  | none => throw .keyError
  | some _ =>
    let e := fun (g : Coefs α → Quant α) => d fun x => match x.C with | some C => g C | none => .zero
    let jP ← jacBlocks "P" id (d CondOut.P) evalKeys
    let jF ← jacBlocks3 "Fhub" (d fun x => x.acc.T) (d fun x => x.acc.Y) (d fun x => x.acc.Z) evalKeys
    let jM ← jacBlocks3 "Mhub" (d fun x => x.acc.Q) (d fun x => x.acc.My) (d fun x => x.acc.Mz) evalKeys
    let jMb ← jacBlocks "Mb" id (d fun x => x.acc.Mb) evalKeys
    let jCP ← jacBlocks "CP" id (e Coefs.CP) evalKeys
    let jCF ← jacBlocks3 "CFhub" (e Coefs.CT) (e Coefs.CY) (e Coefs.CZ) evalKeys
    let jCM ← jacBlocks3 "CMhub" (e Coefs.CQ) (e Coefs.CMy) (e Coefs.CMz) evalKeys
    let jCMb ← jacBlocks "CMb" id (e Coefs.CMb) evalKeys
    return jP ++ (jF ++ (jM ++ (jMb ++ (jCP ++ (jCF ++ (jCM ++ jCMb))))))

/-! ## `CCBladeTwist` -/

/-- The options read by `CCBladeTwist` and its inputs (ccblade_component.py ll. 385-483) -/
structure TwistIn (α : Type) where
  blade : BladeIn α
  Uhub : α
  tsr : α
  pitch : α
  nOpt : ℕ
  s_opt_theta : ℕ → α
  theta_in : ℕ → α
  aoa_op : ℕ → α
  rthick : ℕ → α
  /-- `twist["inverse"]` -/
  inverse : Bool
  /-- `twist["flag"]` -/
  optimize : Bool
  /-- `stall["margin"]` -/
  margin : α
  inn_af : Bool

/-- Outputs of `CCBladeTwist` (ccblade_component.py ll. 486-530) -/
structure TwistOut (α : Type) where
  theta : ℕ → α
  CP : α
  CM : α
  velocities : ℕ → α
  P : α
  T : α
  Q : α
  M : α
  a : ℕ → α
  ap : ℕ → α
  alpha : ℕ → α
  cl : ℕ → α
  cd : ℕ → α
  cl_n_opt : List α
  cd_n_opt : List α
  Px_b : ℕ → α
  Py_b : ℕ → α
  Pz_b : ℕ → α
  Px_af : ℕ → α
  Py_af : ℕ → α
  Pz_af : ℕ → α
  LiftF : ℕ → α
  DragF : ℕ → α
  L_n_opt : List α
  D_n_opt : List α

/-- `PchipInterpolator(x, y)` -/
abbrev Pchip (α : Type) := List α → List α → Except PyErr (α → α)

/-- `Omega` (ccblade_component.py l. 584), in rpm -/
def TwistIn.Omega (x : TwistIn α) : α := x.tsr * x.Uhub / x.blade.r (x.blade.n - 1) * Num.nat 30 / Num.pi

/-- `Re[i]` (ccblade_component.py l. 596) -/
def TwistIn.Re (x : TwistIn α) (i : ℕ) : α := x.Omega * x.blade.r i * x.blade.chord i * x.blade.rho / x.blade.mu

/-- `alpha[i]` (ccblade_component.py ll. 595, 600-609) -/
def TwistIn.sectionAlpha (x : TwistIn α) (i : ℕ) : Except PyErr α :=
  if nabs (x.aoa_op i - Num.pi) < Num.nat 1 / Num.nat 10000 then do
    if x.blade.af.nRe = 0 then throw .indexError
    let row := fun (q : ℕ → ℕ → ℕ → ℕ → α) => arr x.blade.af.nAoa fun a => q i a 0 0
    let u ← evalUnsteady (arr x.blade.af.nAoa x.blade.af.aoa) (row x.blade.af.cl) (row x.blade.af.cd) (row x.blade.af.cm)
    return (u.alpha1 - x.margin * Num.nat 180 / Num.pi) / Num.nat 180 * Num.pi
  else .ok (x.aoa_op i)

/-- `alpha`, `cl`, `cd` (ccblade_component.py ll. 592-610) -/
def TwistIn.sections (x : TwistIn α) (afs : List (CCAf α)) : ℕ → Except PyErr (List (α × α × α))
  | 0 => .ok []
  | k + 1 => do
    let done ← x.sections afs k
    let alpha ← x.sectionAlpha k
    let c := (afList afs k).evaluate alpha (x.Re k)
    return done ++ [(alpha, c.1, c.2)]

/-- `[i for i, thk in enumerate(rthick) if thk < 95.0][0]` (ccblade_component.py l. 613), from index `i` with `k` to go -/
def firstThin (rthick : ℕ → α) : ℕ → ℕ → Except PyErr ℕ
  | _, 0 => .error .indexError
  | i, k + 1 => if rthick i < Num.nat 95 then .ok i else firstThin rthick (i + 1) k

/-- `20.0 / 180.0 * np.pi` -/
def twistLimit : α := Num.nat 20 / Num.nat 180 * Num.pi

/-- The loop that limits the twist (ccblade_component.py ll. 624-627), with the stations `0, ..., k - 1` still to be visited
from the tip -/
def capTwist (theta : ℕ → α) : ℕ → ℕ → α
  | 0 => theta
  | k + 1 => if twistLimit < theta k then fun j => if j < k + 1 then twistLimit else theta j else capTwist theta k

/-- The twist found by the inverse analysis (ccblade_component.py ll. 591-627) -/
def TwistIn.inverseTheta (bq : RootFinder α) (x : TwistIn α) (afs : List (CCAf α)) (R : Rotor α) : Except PyErr (ℕ → α) := do
  let sec ← x.sections afs x.blade.n
  let idx ← firstThin x.rthick 0 x.blade.n
  let at_ := fun (f : α × α × α → α) i => ((sec[i]?).map f).getD 0
  let alpha := fun i => if i < idx then at_ Prod.fst idx else at_ Prod.fst i
  let R1 := { R with inv := some ⟨alpha, at_ fun p => p.2.1, at_ fun p => p.2.2⟩ }
  let res := evaluate bq R1 [⟨x.Uhub, x.Omega, x.pitch⟩] false
  let _ ← res.2
  return capTwist res.1.theta x.blade.n

/-- `s` (ccblade_component.py ll. 638, 677) -/
def TwistIn.s (x : TwistIn α) (i : ℕ) : α :=
  (x.blade.r i - x.blade.r 0) / (x.blade.r (x.blade.n - 1) - x.blade.r 0)

/-- The smoothing of the twist (ccblade_component.py ll. 632-645) -/
def TwistIn.smooth (pchip : Pchip α) (x : TwistIn α) (theta : ℕ → α) : Except PyErr (ℕ → α) := do
  let f ← pchip (arr x.blade.n x.s) (arr x.blade.n theta)
  let g ← pchip (arr x.nOpt x.s_opt_theta) (arr x.nOpt fun j => f (x.s_opt_theta j))
  return fun i => g (x.s i)

/-- `ccblade.theta` as returned (ccblade_component.py ll. 586-645) -/
def TwistIn.twist (bq : RootFinder α) (pchip : Pchip α) (x : TwistIn α) (afs : List (CCAf α)) (R : Rotor α) :
    Except PyErr (ℕ → α) :=
  if x.inverse then
    if x.optimize then .error .exception
    else do
      let theta ← x.inverseTheta bq afs R
      if x.inn_af then x.smooth pchip theta else return theta
  else .ok x.theta_in

/-- `np.nan_to_num` (which also replaces infinities by the largest finite numbers; not modelled) -/
def nanToNum (x : α) : α := if Num.isNaN x then 0 else x

/-- `CCBladeTwist.compute` (ccblade_component.py ll. 534-696).  The outputs `P`, `T`, `Q`, `M` are declared with value 0 and
not assigned. -/
def TwistIn.compute (fit : SplineFit α) (bq : RootFinder α) (pchip : Pchip α) (x : TwistIn α) : Except PyErr (TwistOut α) := do
  let tab := if 1 < x.blade.af.nTab then x.blade.af.nTab / 2 else 0
  let afs ← x.blade.af.airfoils fit tab x.blade.n
  let R ← (x.blade.args (fun _ => 0) afs false).build
  let theta ← x.twist bq pchip afs R
  let R3 := { R with theta := theta }
  let call := distributedAeroLoads bq R3 x.Uhub x.Omega x.pitch 0
  let L ← call.2
  let o ← (evaluate bq call.1 [⟨x.Uhub, x.Omega, x.pitch⟩] true).2
  let c ← pyFirst o.conds
  match c.C with
  | none => throw .keyError
  | some C =>
    let v := stationArr L.stations
    let Np := v SecLoads.Np
    let Tp := v SecLoads.Tp
    let deg := fun i => theta i * Num.nat 180 / Num.pi
    let P_b := fun i => DirVec.mk' (Np i) (-Tp i) 0
    let P_af := fun i => (P_b i).bladeToAirfoil (deg i)
    let F := fun i => (P_b i).bladeToAirfoil (deg i + v SecLoads.alpha i + x.pitch)
    let interp := fun (f : ℕ → α) => npInterps (arr x.nOpt x.s_opt_theta) (arr x.blade.n x.s) (arr x.blade.n f)
    return {
      theta := theta, CP := C.CP.val, CM := C.CMb.val, velocities := fun i => nanToNum (o.W i)
      P := 0, T := 0, Q := 0, M := 0
      a := v SecLoads.a, ap := v SecLoads.ap, alpha := v SecLoads.alpha, cl := v SecLoads.cl, cd := v SecLoads.cd
      cl_n_opt := ← interp (v SecLoads.cl), cd_n_opt := ← interp (v SecLoads.cd)
      Px_b := Np, Py_b := fun i => -Tp i, Pz_b := fun i => 0 * Np i
      Px_af := fun i => (P_af i).x, Py_af := fun i => (P_af i).y, Pz_af := fun i => (P_af i).z
      LiftF := fun i => (F i).x, DragF := fun i => (F i).y
      L_n_opt := ← interp fun i => (F i).x, D_n_opt := ← interp fun i => (F i).y }

end Verif
