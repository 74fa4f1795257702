import Verif.Model.CCBlade

/-!
# Blade data of any length

`CCBlade.__init__` stores `chord`, `theta` and `af` without comparing their lengths with that of `r` (ccblade.py ll. 554-558), and
`distributedAeroLoads` indexes them in the loop over the entries of `r` (ll. 934, 963-969).  `Model/CCBlade.lean` assumes one length for all;
here the same lines for lists of any lengths, in the direct analysis (`inverse_analysis == False`).

Not described: `precurve` and `presweep` of another length (rejected by `np.interp` or by f2py), and a scalar in place of a list.
-/

namespace Verif

variable {α : Type}

/-- The arguments `chord`, `theta` (degrees) and `af` of the constructor (ccblade.py ll. 466-468) -/
structure BladeLists (α : Type) where
  chord : List α
  theta : List α
  af : List (AirfoilI α)

/-- A `CCBlade` object with its lists; the functions `chord`, `theta`, `af` of `base` are not used. -/
structure ListedRotor (α : Type) where
  base : Rotor α
  chord : List α
  theta : List α
  af : List (AirfoilI α)

/-- The object with the given data at every station -/
def Rotor.uniform (R : Rotor α) (chord theta : α) (af : AirfoilI α) : Rotor α :=
  { R with chord := fun _ => chord, theta := fun _ => theta, af := fun _ => af }

variable [Num α]

/-- `CCBlade.__init__` (ccblade.py ll. 554-614): `chord`, `theta`, `af` are stored (ll. 556-558), `theta` in radians; no other
line reads them. -/
def CCArgs.buildListed (x : CCArgs α) (b : BladeLists α) : Except PyErr (ListedRotor α) :=
  match x.build with
  | .error e => .error e
  | .ok R => .ok ⟨R, b.chord, b.theta.map deg2rad, b.af⟩

/-- Body of the loop over the blade (ccblade.py ll. 963-1060): the tuple `args` (l. 969) indexes the three lists; compare `solveStation`. -/
def ListedRotor.solveStation (bq : RootFinder α) (R : ListedRotor α) (pitch Omega : α) (V : ℕ → α × α) (i : ℕ) : Except PyErr (Station α) :=
  match R.chord[i]?, R.theta[i]?, R.af[i]? with
  | some c, some t, some f => Verif.solveStation bq (R.base.uniform c t f) pitch Omega V i
  | _, _, _ => .error .indexError

/-- The loop over the blade (ccblade.py l. 963); compare `solveStations`. -/
def ListedRotor.solveStations (bq : RootFinder α) (R : ListedRotor α) (pitch Omega : α) (V : ℕ → α × α) : ℕ → Except PyErr (List (Station α))
  | 0 => .ok []
  | k + 1 => do
    let done ← R.solveStations bq pitch Omega V k
    let s ← R.solveStation bq pitch Omega V k
    return done ++ [s]

/-- `distributedAeroLoads` (ccblade.py ll. 878-1153); the loop runs over `len(self.r)` stations (l. 934).  Compare
`Verif.distributedAeroLoads`. -/
def ListedRotor.distributedAeroLoads (bq : RootFinder α) (R : ListedRotor α) (Uinf Omega pitchDeg azimuthDeg : α) :
    ListedRotor α × Except PyErr (LoadsOut α) :=
  let pitch := deg2rad pitchDeg
  let azimuth := deg2rad azimuthDeg
  let R1 := { R.base with pitch := some pitch }
  match R.solveStations bq pitch Omega (rotorWind R.base Uinf Omega azimuth) R.base.n with
  | .error e => ({ R with base := R1 }, .error e)
  | .ok s =>
    if R.base.derivatives then
      let J := loadJac R.base Uinf Omega azimuth s
      ({ R with base := { R1 with saved := some J } },
        .ok ⟨s, loadDict R.base.n J.dNp_dX J.dNp_dprecurve, loadDict R.base.n J.dTp_dX J.dTp_dprecurve⟩)
    else ({ R with base := R1 }, .ok ⟨s, [], []⟩)

/-- Loop over the azimuth angles (ccblade.py ll. 1273-1325); compare `Verif.sectorLoop`. -/
def ListedRotor.sectorLoop (bq : RootFinder α) (Uinf Omega pitch : α) :
    List α → ListedRotor α → RotorAcc α → ListedRotor α × Except PyErr (RotorAcc α)
  | [], R, acc => (R, .ok acc)
  | az :: rest, R, acc =>
    match R.distributedAeroLoads bq Uinf Omega pitch (rad2deg az) with
    | (R', .error e) => (R', .error e)
    | (R', .ok L) => sectorLoop bq Uinf Omega pitch rest R' (sectorStep R'.base az L acc)

/-- Loop over the operating conditions (ccblade.py ll. 1271-1325); compare `Verif.condLoop`. -/
def ListedRotor.condLoop (bq : RootFinder α) : List (Cond α) → ListedRotor α → ListedRotor α × Except PyErr (List (RotorAcc α))
  | [], R => (R, .ok [])
  | c :: rest, R =>
    match ListedRotor.sectorLoop bq c.Uinf c.Omega c.pitch (azimuthAngles R.base.nSector) R .zero with
    | (R', .error e) => (R', .error e)
    | (R', .ok acc) =>
      match condLoop bq rest R' with
      | (R'', .error e) => (R'', .error e)
      | (R'', .ok l) => (R'', .ok (acc :: l))

/-- The result of `evaluate` (ccblade.py ll. 1155-1488); compare `Verif.evaluate`. -/
def ListedRotor.evaluate (bq : RootFinder α) (R : ListedRotor α) (cs : List (Cond α)) (coefficients : Bool) : Except PyErr (EvalOut α) :=
  match ListedRotor.condLoop bq cs R with
  | (_, .error e) => .error e
  | (_, .ok accs) =>
    match accs.getLast?.bind RotorAcc.W with
    | none => .error .unboundLocal
    | some W =>
      .ok ⟨List.zipWith (fun c a => ⟨a, power a.Q c.Omega, if coefficients then some (coefs R.base c a) else none⟩) cs accs, W⟩

end Verif
