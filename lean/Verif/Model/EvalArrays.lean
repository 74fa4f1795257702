import Verif.Model.CCBlade

/-!
# `CCBlade.evaluate` on the arrays a caller passes

`evaluate` of Model/CCBlade takes a list of conditions.  The method takes three arrays, whose lengths it does not compare.  Here is the
method on three arrays, with the indexing of the loop and the broadcasting of numpy: the arrays in `outputs` and, with `derivatives`,
the dictionaries in `derivs`.
-/

namespace Verif

variable {α : Type} [Num α]

/-- An arithmetic operation on two one-dimensional numpy arrays: element by element for equal lengths, an array of length one is
stretched, otherwise `ValueError` (operands could not be broadcast together). -/
def npBroadcast (f : α → α → α) (x y : List α) : Except PyErr (List α) :=
  if x.length = y.length then .ok (List.zipWith f x y)
  else match x, y with
    | [a], y => .ok (y.map (f a))
    | x, [b] => .ok (x.map fun a => f a b)
    | _, _ => .error .valueError

/-- The loop over `range(npts)` (ccblade.py ll. 1271-1325).  `Uinf[i]`, `Omega[i]` and `pitch[i]` are evaluated in the body of the loop
over the azimuth angles (l. 1278): a missing entry raises `IndexError` there. -/
def indexLoop (bq : RootFinder α) (Uinf Omega pitch : List α) : List ℕ → Rotor α → Rotor α × Except PyErr (List (RotorAcc α))
  | [], R => (R, .ok [])
  | i :: rest, R =>
    let body :=
      match Uinf[i]?, Omega[i]?, pitch[i]? with
      | some u, some o, some p => sectorLoop bq u o p (azimuthAngles R.nSector) R .zero
      | _, _, _ => (R, if R.nSector = 0 then .ok .zero else .error .indexError)
    match body with
    | (R', .error e) => (R', .error e)
    | (R', .ok acc) =>
      match indexLoop bq Uinf Omega pitch rest R' with
      | (R'', .error e) => (R'', .error e)
      | (R'', .ok l) => (R'', .ok (acc :: l))

/-- The coefficient arrays in `outputs` -/
structure CoefArrays (α : Type) where
  CP : List α
  CT : List α
  CY : List α
  CZ : List α
  CQ : List α
  CMy : List α
  CMz : List α
  CMb : List α

/-- The arrays in `outputs` and the dictionaries in `derivs` (ccblade.py ll. 1447-1488) -/
structure EvalArrays (α : Type) where
  P : List α
  T : List α
  Y : List α
  Z : List α
  Q : List α
  My : List α
  Mz : List α
  Mb : List α
  W : ℕ → α
  C : Option (CoefArrays α)
  derivs : List (String × List (String × Mat α))

/-- The coefficients (ccblade.py ll. 1361-1370).  All arrays but `P` have the length of `Uinf`. -/
def coefArrays (R : Rotor α) (Uinf P : List α) (accs : List (RotorAcc α)) : Except PyErr (CoefArrays α) :=
  let q := fun U => 1 / Num.nat 2 * R.rho * sq U
  let A := Num.pi * sq R.rotorR
  let force := fun (f : RotorAcc α → Quant α) => List.zipWith (fun U a => (f a).val / (q U * A)) Uinf accs
  let moment := fun (f : RotorAcc α → Quant α) => List.zipWith (fun U a => (f a).val / (q U * R.rotorR * A)) Uinf accs
  match npBroadcast (fun p U => p / (q U * A * U)) P Uinf with
  | .error e => .error e
  | .ok CP => .ok ⟨CP, force RotorAcc.T, force RotorAcc.Y, force RotorAcc.Z, moment RotorAcc.Q, moment RotorAcc.My, moment RotorAcc.Mz,
      moment RotorAcc.Mb⟩

/-- The dictionaries in `derivs` (ccblade.py ll. 1330-1358, 1372-1445).  `Uinf`, `Omega` and `accs` have the same length here: with several
rotational speeds and one wind speed `reshape` has failed before (`evaluateArrays`). -/
def derivDicts (R : Rotor α) (Uinf Omega : List α) (accs : List (RotorAcc α)) (coefficients : Bool) :
    List (String × List (String × Mat α)) :=
  let d := fun (f : RotorAcc α → Quant α) => rotorDict R.n (accs.map f)
  let c := fun (f : Coefs α → Quant α) => rotorDict R.n (List.zipWith (fun x a => f (coefs R ⟨x.1, x.2, 0⟩ a)) (List.zip Uinf Omega) accs)
  [("dP", rotorDict R.n (List.zipWith (fun o a => power a.Q o) Omega accs)), ("dT", d RotorAcc.T), ("dY", d RotorAcc.Y),
   ("dZ", d RotorAcc.Z), ("dQ", d RotorAcc.Q), ("dMy", d RotorAcc.My), ("dMz", d RotorAcc.Mz), ("dMb", d RotorAcc.Mb)] ++
  if coefficients then
    [("dCP", c Coefs.CP), ("dCT", c Coefs.CT), ("dCY", c Coefs.CY), ("dCZ", c Coefs.CZ), ("dCQ", c Coefs.CQ), ("dCMy", c Coefs.CMy),
     ("dCMz", c Coefs.CMz), ("dCMb", c Coefs.CMb)]
  else []

/-- `evaluate` (ccblade.py ll. 1155-1488); `npts = len(Uinf)` (l. 1242), the power at l. 1328, `W` unbound at
l. 1458 when the loops have not run.  With `derivatives`, `dP_ds` has as many rows as `P` (l. 1334), and `dP_ds[:, 0].reshape(npts, 1)`
(l. 1775) raises `ValueError` if these are not `npts`. -/
def evaluateArrays (bq : RootFinder α) (R : Rotor α) (Uinf Omega pitch : List α) (coefficients : Bool) :
    Rotor α × Except PyErr (EvalArrays α) :=
  match indexLoop bq Uinf Omega pitch (List.range Uinf.length) R with
  | (R', .error e) => (R', .error e)
  | (R', .ok accs) =>
    match npBroadcast (fun Q o => Q * o * Num.pi / Num.nat 30) (accs.map fun a => a.Q.val) Omega with
    | .error e => (R', .error e)
    | .ok P =>
      if R.derivatives && P.length != Uinf.length then (R', .error .valueError) else
      let C := if coefficients then (coefArrays R Uinf P accs).map some else .ok none
      match C with
      | .error e => (R', .error e)
      | .ok C =>
        match accs.getLast?.bind RotorAcc.W with
        | none => (R', .error .unboundLocal)
        | some W => (R', .ok ⟨P, accs.map fun a => a.T.val, accs.map fun a => a.Y.val, accs.map fun a => a.Z.val,
            accs.map fun a => a.Q.val, accs.map fun a => a.My.val, accs.map fun a => a.Mz.val, accs.map fun a => a.Mb.val, W, C,
            if R.derivatives then derivDicts R Uinf Omega accs coefficients else []⟩)

end Verif
