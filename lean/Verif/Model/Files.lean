import Verif.Model.AeroDyn

/-!
# Model of the functions that use the file system

`CCAirfoil.af_flap_coords` of `ccblade/ccblade.py` and the command line of `ccblade/airfoilprep.py`.  The file system maps names to
texts; directories, permissions and other processes are not modelled.
-/

namespace Verif

variable {α : Type} [Num α]

/-- The files that exist, with their contents -/
abbrev FS := List Char → Option (List Char)

/-- `os.remove(n)` of a file that exists -/
def FS.remove (fs : FS) (n : List Char) : FS := fun m => if m = n then none else fs m

/-- Writing a whole file -/
def FS.put (fs : FS) (n text : List Char) : FS := fun m => if m = n then some text else fs m

/-- `if os.path.exists(n): os.remove(n)` -/
def FS.clear (fs : FS) (n : List Char) : FS := if (fs n).isSome then fs.remove n else fs

/-! ## `af_flap_coords` -/

/-- The attributes of a `CCAirfoil` that `af_flap_coords` reads or sets (`none`: attribute not yet set) -/
structure FlapAf (α : Type) where
  AFName : List Char
  x : List α
  y : List α
  flapX : Option (List α)
  flapY : Option (List α)
  ctrl : Option α

/-- The names of the temporary files -/
structure FlapNames where
  coords : List Char
  saveAF : List Char
  script : List Char
  nul : List Char

/-- The names (ccblade.py ll. 375-388); `pid` is given when `multi_run or MPI_run`.  `saveFlnmPolar` is not used. -/
def flapNames (AFName df : List Char) : Option ℕ → FlapNames
  | some pid =>
    { coords := "profilecoords_p".toList ++ Nat.toDigits 10 pid ++ ".dat".toList
      saveAF := AFName ++ '_' :: df ++ "_Airfoil_p".toList ++ Nat.toDigits 10 pid ++ ".txt".toList
      script := "xfoil_input_p".toList ++ Nat.toDigits 10 pid ++ ".txt".toList
      nul := "NUL_".toList ++ Nat.toDigits 10 pid }
  | none =>
    { coords := "profilecoords.dat".toList
      saveAF := AFName ++ '_' :: df ++ "_Airfoil.txt".toList
      script := "xfoil_input.txt".toList
      nul := "NUL".toList }

/-- The numbers of the request, as `str` prints them -/
structure FlapText where
  delta : List Char
  xc : List Char
  yt : List Char
  numNodes : List Char

/-- The arguments of the calls of `fid.write` (ccblade.py ll. 406-436) -/
def flapPieces (AFName : List Char) (t : FlapText) (n : FlapNames) : List (List Char) :=
  ["PLOP \n G \n\n".toList, "LOAD \n".toList, n.coords ++ ['\n'], AFName ++ ['\n'], "GDES \n".toList, "FLAP \n".toList,
   t.xc ++ ['\n'], "999\n".toList, t.yt ++ ['\n'], t.delta ++ ['\n'], "NAME \n".toList, AFName ++ '_' :: t.delta ++ ['\n'],
   "EXEC \n \n".toList, "PPAR\n".toList, "N \n".toList, t.numNodes ++ ['\n'], "T \n".toList, "0.5\n".toList, "\n\n".toList,
   "PSAV \n".toList, n.saveAF ++ " \n \n".toList, "QUIT \n".toList]

/-- `np.savetxt(name, np.array([x, y]).T, fmt=["%f", "%f"])`, the text -/
def savetxt (fmt : α → List Char) (x y : List α) : List Char :=
  (List.zipWith (fun a b => fmt a ++ ' ' :: fmt b ++ ['\n']) x y).flatten

/-- The external world: `str` of the numbers is in `FlapText`; `sys` is the effect of a shell command on the files, `fmt` the format
`%f`, `parse` the rows of numbers `np.loadtxt` finds in a text -/
structure FlapWorld (α : Type) where
  sys : List Char → FS → FS
  fmt : α → List Char
  parse : List Char → Except PyErr (List (List α))

/-- `flap_coords[:, k]` for the array of `np.loadtxt`, which is one-dimensional (so that two indices raise) unless there are at least
two rows and two columns -/
def loadtxtColumn (rows : List (List α)) (k : ℕ) : Except PyErr (List α) :=
  if rows.length < 2 ∨ rows.any (fun r => r.length < 2) then .error .indexError
  else rows.mapM fun r => pyGet r k

/-- The files XFOIL sees (ccblade.py ll. 390-437) -/
def flapPrepare (w : FlapWorld α) (AFName : List Char) (x y : List α) (t : FlapText) (n : FlapNames) (fs : FS) : FS :=
  let fs := (((fs.clear n.saveAF).clear n.coords).clear n.script).clear n.nul
  (fs.put n.coords (savetxt w.fmt x y)).put n.script (flapPieces AFName t n).flatten

/-- The deletions at the end (ccblade.py ll. 448-455) -/
def flapCleanup (n : FlapNames) (fs : FS) : FS := (((fs.clear n.coords).clear n.script).clear n.saveAF).clear n.nul

/-- From the loading of what XFOIL saved to the end (ccblade.py ll. 441-455) -/
def flapFinish (w : FlapWorld α) (delta : α) (n : FlapNames) (a : FlapAf α) (fs : FS) : FS × FlapAf α × Except PyErr Unit :=
  match fs n.saveAF with
  | none => (fs, a, .error .osError)
  | some text =>
    match w.parse text with
    | .error e => (fs, a, .error e)
    | .ok rows =>
      match loadtxtColumn rows 0 with
      | .error e => (fs, a, .error e)
      | .ok xs =>
        match loadtxtColumn rows 1 with
        | .error e => (fs, { a with flapX := some xs }, .error e)
        | .ok ys => (flapCleanup n fs, { a with flapX := some xs, flapY := some ys, ctrl := some delta }, .ok ())

/-- The command that runs XFOIL (ccblade.py l. 439) -/
def flapCommand (xfoil : List Char) (n : FlapNames) : List Char := xfoil ++ " < ".toList ++ n.script ++ " > ".toList ++ n.nul

/-- `CCAirfoil.af_flap_coords` (ccblade.py ll. 365-455).  Coordinates of different lengths make `np.array` raise before anything is
written, but after the old files are removed. -/
def flapCoords (w : FlapWorld α) (xfoil : List Char) (delta : α) (t : FlapText) (pid : Option ℕ) (a : FlapAf α) (fs : FS) :
    FS × FlapAf α × Except PyErr Unit :=
  let n := flapNames a.AFName t.delta pid
  if a.x.length = a.y.length then
    flapFinish w delta n a (w.sys (flapCommand xfoil n) (flapPrepare w a.AFName a.x a.y t n fs))
  else ((((fs.clear n.saveAF).clear n.coords).clear n.script).clear n.nul, a, .error .valueError)

/-! ## The command line of `airfoilprep.py` -/

/-- The part of a name after the last `/` -/
def baseName (p : List Char) : List Char := (p.reverse.takeWhile (· ≠ '/')).reverse

/-- The part of a name up to and including the last `/` -/
def dirPart (p : List Char) : List Char := (p.reverse.dropWhile (· ≠ '/')).reverse

/-- `os.path.splitext(p)` (posix): the extension starts at the last dot of the base name, unless only dots precede it -/
def splitext (p : List Char) : List Char × List Char :=
  let b := baseName p
  let e := (b.reverse.takeWhile (· ≠ '.')).reverse
  let stem := b.take (b.length - e.length - 1)
  if b.contains '.' ∧ stem.any (· ≠ '.') then (dirPart p ++ stem, '.' :: e) else (p, [])

/-- The parsed arguments; for `--plot` see `cliMainPlot` -/
structure CliArgs where
  src : List Char
  stall3D : Option (List Char × List Char × List Char)
  extrap : Option (List Char)
  blend : Option (List Char × List Char)
  out : Option (List Char)
  common : Bool

/-- The loop over the polars in `writeToAerodynFile` (airfoilprep.py ll. 783-804): the text written so far when it ends, normally or
with an exception of `unsteadyparam` -/
def writePolars (fit : PolyFit α) (fmt : α → List Char) : List (Polar α) → List Char → List Char × Except PyErr Unit
  | [], text => (text, .ok ())
  | p :: ps, text =>
    match polarText fit fmt p with
    | .error e => (text ++ labelled (fmt (p.Re / Num.nat (10 ^ 6))) "Reynolds number in millions.", .error e)
    | .ok l => writePolars fit fmt ps (text ++ l.flatten)

/-- `writeToAerodynFile` (airfoilprep.py ll. 764-805): the files afterwards, and the exception.  The file is opened, and emptied, after
the interpolation; what was written before an exception stays. -/
def AfSet.writeFile (fit : PolyFit α) (fmt : α → List Char) (af : AfSet α) (name : List Char) (fs : FS) : FS × Except PyErr Unit :=
  match af.interpToCommonAlpha none with
  | .error e => (fs, .error e)
  | .ok a =>
    let r := writePolars fit fmt a.polars ("AeroDyn airfoil file.".toList ++ "Compatible with AeroDyn v13.0.".toList ++
      "Generated by airfoilprep.py".toList ++
      (padRight 10 (Nat.toDigits 10 a.polars.length) ++ '\t' :: '\t' :: padRight 40 "Number of airfoil tables in this file".toList))
    (fs.put name r.1, r.2)

/-- `Airfoil.initFromAerodynFile(name)`; a missing file raises -/
def readFile (lex : Lex α) (fuel : ℕ) (name : List Char) (fs : FS) : Option (Except PyErr (AfSet α)) :=
  match fs name with
  | none => some (.error .osError)
  | some text => readAeroDyn lex fuel text

/-- The last steps of every action: `--common`, then writing -/
def cliFinish (fit : PolyFit α) (fmt : α → List Char) (common : Bool) (out : List Char) (fs : FS) (r : Except PyErr (AfSet α)) :
    FS × Except PyErr Unit :=
  match (do let af ← r; if common then af.interpToCommonAlpha none else return af) with
  | .error e => (fs, .error e)
  | .ok af => af.writeFile fit fmt out fs

/-- The main program (airfoilprep.py ll. 1014-1121); `none`: the reader does not end within `fuel` lines -/
def cliMain (lex : Lex α) (fit : PolyFit α) (fmt : α → List Char) (fuel : ℕ) (a : CliArgs) (fs : FS) :
    Option (FS × Except PyErr Unit) :=
  match a.stall3D with
  | some (s1, s2, s3) =>
    let out := a.out.getD ((splitext a.src).1 ++ "_3D".toList ++ (splitext a.src).2)
    match readFile lex fuel a.src fs with
    | none => none
    | some r => some (cliFinish fit fmt a.common out fs (do
        let af ← r
        let f1 ← lex.toFloat s1
        let f2 ← lex.toFloat s2
        let f3 ← lex.toFloat s3
        af.correction3D fit ⟨f1, f2, f3, Num.nat 30, -Num.nat 5, Num.nat 5⟩))
  | none =>
    match a.extrap with
    | some c =>
      let out := a.out.getD ((splitext a.src).1 ++ "_extrap".toList ++ (splitext a.src).2)
      match readFile lex fuel a.src fs with
      | none => none
      | some r => some (cliFinish fit fmt a.common out fs (do
          let af ← r
          af.extrapolate (← lex.toFloat c) none (Num.nat 1 / Num.nat 1000)))
    | none =>
      match a.blend with
      | some (other, w) =>
        let b := splitext (baseName other)
        let out := a.out.getD ((splitext a.src).1 ++ '+' :: b.1 ++ "_blend".toList ++ w ++ b.2)
        match readFile lex fuel a.src fs with
        | none => none
        | some (.error e) => some (fs, .error e)
        | some (.ok af1) =>
          match readFile lex fuel other fs with
          | none => none
          | some r => some (cliFinish fit fmt a.common out fs (do
              let af2 ← r
              af1.blend af2 (← lex.toFloat w)))
      | none => some (fs, .ok ())

end Verif
