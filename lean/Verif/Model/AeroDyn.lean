import Verif.Model.CCAirfoil

/-!
# Model of the AeroDyn files of `ccblade/airfoilprep.py`

A file is the list of its characters, with line ends already translated to `\n` (text mode).  Opening and closing of files is
not modelled.  `int`, `float` and the format `f` are parameters.  The `while True` loop of the reader is unrolled a given number
of times; `none` means that the loop is still running after that number.
-/

namespace Verif

variable {α : Type} [Num α]

/-! ## Characters and lines -/

/-- White space for `str.split()` -/
def isWs (c : Char) : Bool :=
  (9 ≤ c.toNat && c.toNat ≤ 13) || (28 ≤ c.toNat && c.toNat ≤ 32) || c.toNat == 0x85 || c.toNat == 0xa0 || c.toNat == 0x1680
    || (0x2000 ≤ c.toNat && c.toNat ≤ 0x200a) || c.toNat == 0x2028 || c.toNat == 0x2029 || c.toNat == 0x202f
    || c.toNat == 0x205f || c.toNat == 0x3000

/-- Loop of `str.split()`; `cur` is the current word, reversed -/
def splitFrom (cur : List Char) : List Char → List (List Char)
  | [] => if cur.isEmpty then [] else [cur.reverse]
  | c :: l =>
    if isWs c then (if cur.isEmpty then splitFrom [] l else cur.reverse :: splitFrom [] l) else splitFrom (c :: cur) l

/-- `line.split()` -/
def pySplit (line : List Char) : List (List Char) := splitFrom [] line

/-- `f.readline()`: the line with its end, and what is left; the empty string at the end of the file -/
def readline : List Char → List Char × List Char
  | [] => ([], [])
  | c :: l => if c = '\n' then ([c], l) else (c :: (readline l).1, (readline l).2)

/-- `"EOT" in line` -/
def hasEOT : List Char → Bool
  | 'E' :: 'O' :: 'T' :: _ => true
  | _ :: l => hasEOT l
  | [] => false

/-- `int(s)` and `float(s)` -/
structure Lex (α : Type) where
  toInt : List Char → Except PyErr ℤ
  toFloat : List Char → Except PyErr α

/-! ## Reader -/

/-- `f.readline().split()[0]` -/
def readWord (s : List Char) : Except PyErr (List Char × List Char) := do
  return (← pyFirst (pySplit (readline s).1), (readline s).2)

/-- `float(f.readline().split()[0])` -/
def readFloat (lex : Lex α) (s : List Char) : Except PyErr (α × List Char) := do
  let w ← readWord s
  return (← lex.toFloat w.1, w.2)

/-- Reading `k` parameters (airfoilprep.py ll. 566-569); the values are not used. -/
def readParams (lex : Lex α) : ℕ → List Char → Except PyErr (List Char)
  | 0, s => .ok s
  | k + 1, s => do
    let w ← readFloat lex s
    readParams lex k w.2

/-- One row of a table: `alpha`, `cl`, `cd`, `cm` -/
structure AfRow (α : Type) where
  alpha : α
  cl : α
  cd : α
  cm : α

/-- The row of a line (airfoilprep.py ll. 581-588) -/
def readRow (lex : Lex α) (line : List Char) : Except PyErr (AfRow α) := do
  match ← (pySplit line).mapM lex.toFloat with
  | a :: b :: c :: d :: _ => return ⟨a, b, c, d⟩
  | _ => throw .valueError

/-- The loop `while True` (airfoilprep.py ll. 577-588), unrolled `k` times -/
def readRows (lex : Lex α) : ℕ → List Char → Option (Except PyErr (List (AfRow α) × List Char))
  | 0, _ => none
  | k + 1, s =>
    let line := readline s
    if hasEOT line.1 then some (.ok ([], line.2))
    else
      match readRow lex line.1 with
      | .error e => some (.error e)
      | .ok row =>
        match readRows lex k line.2 with
        | none => none
        | some (.error e) => some (.error e)
        | some (.ok (rows, rest)) => some (.ok (row :: rows, rest))

/-- `polarType(Re, alpha, cl, cd, cm)` (airfoilprep.py l. 590) -/
def polarOfRows (Re : α) (rows : List (AfRow α)) : Polar α :=
  ⟨Re, rows.map AfRow.alpha, rows.map AfRow.cl, rows.map AfRow.cd, rows.map AfRow.cm⟩

/-- One table (airfoilprep.py ll. 563-590) -/
def readTable (lex : Lex α) (fuel : ℕ) (s : List Char) : Option (Except PyErr (Polar α × List Char)) :=
  match readFloat lex s with
  | .error e => some (.error e)
  | .ok (re, s1) =>
    match readParams lex 8 s1 with
    | .error e => some (.error e)
    | .ok s2 =>
      match readRows lex fuel s2 with
      | none => none
      | some (.error e) => some (.error e)
      | some (.ok (rows, rest)) => some (.ok (polarOfRows (re * Num.nat (10 ^ 6)) rows, rest))

/-- The loop over the tables (airfoilprep.py ll. 560-590) -/
def readTables (lex : Lex α) (fuel : ℕ) : ℕ → List Char → Option (Except PyErr (List (Polar α)))
  | 0, _ => some (.ok [])
  | n + 1, s =>
    match readTable lex fuel s with
    | none => none
    | some (.error e) => some (.error e)
    | some (.ok (p, rest)) =>
      match readTables lex fuel n rest with
      | none => none
      | some (.error e) => some (.error e)
      | some (.ok ps) => some (.ok (p :: ps))

/-- `Airfoil.initFromAerodynFile` (airfoilprep.py ll. 534-594) on the text `s`; `range` of a negative number is empty. -/
def readAeroDyn (lex : Lex α) (fuel : ℕ) (s : List Char) : Option (Except PyErr (AfSet α)) :=
  let s1 := (readline s).2
  let s2 := (readline s1).2
  let s3 := (readline s2).2
  match readWord s3 with
  | .error e => some (.error e)
  | .ok (w, s4) =>
    match lex.toInt w with
    | .error e => some (.error e)
    | .ok n =>
      match readTables lex fuel n.toNat s4 with
      | none => none
      | some (.error e) => some (.error e)
      | some (.ok ps) => some (AfSet.build ps)

/-- `CCAirfoil.initFromAerodynFile` (ccblade.py ll. 96-111) -/
def CCAf.read (lex : Lex α) (fit : SplineFit α) (fuel : ℕ) (s : List Char) : Option (Except PyErr (CCAf α)) :=
  match readAeroDyn lex fuel s with
  | none => none
  | some (.error e) => some (.error e)
  | some (.ok af) => some (CCAf.ofAirfoil fit af)

/-! ## Parameters for the dynamic stall model -/

/-- The result of `unsteadyparam` -/
structure UnsteadyParam (α : Type) where
  control : α
  stallAngle : α
  alphaZeroCn : α
  cnSlope : α
  cnStallUpper : α
  cnStallLower : α
  alphaMinCd : α
  minCd : α

/-- The parameters as a list, in the order of the tuple -/
def UnsteadyParam.toList (u : UnsteadyParam α) : List α :=
  [u.control, u.stallAngle, u.alphaZeroCn, u.cnSlope, u.cnStallUpper, u.cnStallLower, u.alphaMinCd, u.minCd]

/-- `cn` (airfoilprep.py l. 425), `alpha` in radians -/
def cnOf (alpha cl cd : List α) : List α :=
  List.zipWith (fun a p => p.1 * Num.cos a + p.2 * Num.sin a) alpha (cl.zip cd)

/-- `Polar.unsteadyparam` (airfoilprep.py ll. 400-469) for arrays of equal length; the arguments are in degrees -/
def Polar.unsteadyparam (fit : PolyFit α) (p : Polar α) (linMin linMax : α) : Except PyErr (UnsteadyParam α) := do
  let alpha := p.alpha.map deg2rad
  let cn := cnOf alpha p.cl p.cd
  -- ll. 427-441: `idx` is a mask, its length is that of `alpha`
  if alpha.length < 10 ∨ (npUnique p.cl).length < 10 then return ⟨0, 0, 0, 0, 0, 0, 0, 0⟩
  -- ll. 443-446
  let pq ← fit ((alpha.zip cn).filter (fun q => deg2rad linMin ≤ q.1 ∧ q.1 ≤ deg2rad linMax))
  let m := pq.1
  let alpha0 := -pq.2 / m
  -- ll. 448-455
  let alphaUpper := arr 40 fun i => deg2rad (Num.nat i)
  let alphaLower := arr 45 fun i => deg2rad (Num.nat 5 - Num.nat i)
  let cnUpper ← npInterps alphaUpper alpha cn
  let cnLower ← npInterps alphaLower alpha cn
  let linUpper := alphaUpper.map fun a => m * (a - alpha0)
  let linLower := alphaLower.map fun a => m * (a - alpha0)
  let deviation := Num.nat 5 / Num.nat 100
  -- ll. 457-458
  let aU ← npInterp deviation ((List.zipWith (fun x y => x - y) linUpper cnUpper).zip alphaUpper)
  let aL ← npInterp deviation ((List.zipWith (fun x y => x - y) cnLower linLower).zip alphaLower)
  -- ll. 461-469
  let i ← npArgmin p.cd
  return ⟨0, rad2deg aU, rad2deg alpha0, m, m * (aU - alpha0), m * (aL - alpha0), ← pyGet alpha i, ← pyGet p.cd i⟩

/-! ## Writer -/

/-- `"{:<w}"`: padded with blanks on the right -/
def padRight (w : ℕ) (s : List Char) : List Char := s ++ List.replicate (w - s.length) ' '

/-- `"{0:<10f}\t{1:40}"` -/
def labelled (x : List Char) (label : String) : List Char := padRight 10 x ++ '\t' :: padRight 40 label.toList

/-- The labels of the parameters (airfoilprep.py ll. 786-801) -/
def paramLabels : List String :=
  ["Control setting", "Stall angle (deg)", "Angle of attack for zero Cn for linear Cn curve (deg)",
   "Cn slope for zero lift for linear Cn curve (1/rad)", "Cn at stall value for positive angle of attack for linear Cn curve",
   "Cn at stall value for negative angle of attack for linear Cn curve", "Angle of attack for minimum CD (deg)",
   "Minimum CD value"]

/-- One row (airfoilprep.py ll. 802-803) -/
def rowText (fmt : α → List Char) (q : AfRow α) : List Char :=
  padRight 10 (fmt q.alpha) ++ '\t' :: (padRight 10 (fmt q.cl) ++ '\t' :: (padRight 10 (fmt q.cd) ++ '\t' :: padRight 10 (fmt q.cm)))

/-- `zip(p.alpha, p.cl, p.cd, p.cm)` -/
def Polar.rows (p : Polar α) : List (AfRow α) :=
  List.zipWith (fun (x y : α × α) => ⟨x.1, x.2, y.1, y.2⟩) (p.alpha.zip p.cl) (p.cd.zip p.cm)

/-- The arguments of the calls of `f.write` for one polar (airfoilprep.py ll. 784-804) -/
def polarText (fit : PolyFit α) (fmt : α → List Char) (p : Polar α) : Except PyErr (List (List Char)) := do
  let u ← p.unsteadyparam fit (-Num.nat 5) (Num.nat 5)
  return labelled (fmt (p.Re / Num.nat (10 ^ 6))) "Reynolds number in millions." ::
    (List.zipWith (fun x l => labelled (fmt x) l) u.toList paramLabels ++ (p.rows.map (rowText fmt) ++ ["EOT".toList]))

/-- The arguments of all calls of `f.write` (airfoilprep.py ll. 774-804); `fmt` is the format `f`. -/
def AfSet.pieces (fit : PolyFit α) (fmt : α → List Char) (af : AfSet α) : Except PyErr (List (List Char)) := do
  let a ← af.interpToCommonAlpha none
  let body ← a.polars.mapM (polarText fit fmt)
  return "AeroDyn airfoil file.".toList :: "Compatible with AeroDyn v13.0.".toList :: "Generated by airfoilprep.py".toList ::
    (padRight 10 (Nat.toDigits 10 a.polars.length) ++ '\t' :: '\t' :: padRight 40 "Number of airfoil tables in this file".toList) ::
    body.flatten

/-- `Airfoil.writeToAerodynFile` (airfoilprep.py ll. 764-805): the text written.  `f.write` adds no line ends. -/
def AfSet.writeAeroDyn (fit : PolyFit α) (fmt : α → List Char) (af : AfSet α) : Except PyErr (List Char) := do
  return (← af.pieces fit fmt).flatten

end Verif
