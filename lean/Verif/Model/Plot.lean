import Verif.Model.Files

/-!
# Plots of `airfoilprep.py`

What a figure shows: its curves in the order drawn, their labels and the labels of the axes.  Left out: colours, the place of the
legend, the window.  matplotlib is assumed to be installed; `plot(x, y)` raises `ValueError` for columns of different lengths.
-/

namespace Verif

/-- The label of a curve: none, `"Re = " + str(x) + " million"`, or a word -/
inductive CurveLabel (α : Type)
  | none
  | millions (x : α)
  | word (s : String)

/-- A curve of a figure -/
structure Curve (α : Type) where
  x : List α
  y : List α
  label : CurveLabel α

/-- A figure with one pair of axes -/
structure Figure (α : Type) where
  curves : List (Curve α)
  xlabel : String
  ylabel : String

variable {α : Type} [Num α]

/-- `plt.figure()` -/
def Figure.empty : Figure α := ⟨[], "", ""⟩

/-- `ax.plot(x, y)` -/
def Figure.draw (f : Figure α) (c : Curve α) : Except PyErr (Figure α) :=
  if c.x.length = c.y.length then .ok { f with curves := f.curves ++ [c] } else .error .valueError

/-- `set_xlabel`, `set_ylabel` -/
def Figure.axes (f : Figure α) (y : String) : Figure α := { f with xlabel := "angle of attack (deg)", ylabel := y }

/-- A figure of one polar (airfoilprep.py ll. 486-492, 495-501, 504-510) -/
def polarFigure (p : Polar α) (y : List α) (name : String) : Except PyErr (Figure α) := do
  let f ← Figure.empty.draw ⟨p.alpha, y, .millions (p.Re / Num.nat (10 ^ 6))⟩
  return f.axes name

/-- `Polar.plot` (airfoilprep.py ll. 471-512) -/
def Polar.plot (p : Polar α) : Except PyErr (List (Figure α)) := do
  let f1 ← polarFigure p p.cl "lift coefficient"
  let f2 ← polarFigure p p.cd "drag coefficient"
  let f3 ← polarFigure p p.cm "moment coefficient"
  return [f1, f2, f3]

/-- `Airfoil.plot` (airfoilprep.py ll. 846-931).  In single figure mode the first polar is asked for `useCM` (l. 878), which no polar
has. -/
def AfSet.plot (af : AfSet α) (single : Bool) : Except PyErr (List (Figure α)) :=
  if single then
    match af.polars with
    | [] => .ok [Figure.empty, Figure.empty]
    | _ :: _ => .error .attributeError
  else af.polars.foldlM (fun figs p => do
    let f1 ← polarFigure p p.cl "lift coefficient"
    let figs := figs ++ [f1]
    let f2 ← polarFigure p p.cd "drag coefficient"
    let figs := figs ++ [f2]
    let f3 ← polarFigure p p.cm "moment coefficient"
    return figs ++ [f3]) []

/-- Two curves in one figure (airfoilprep.py ll. 1040-1045, 1048-1053, 1080-1085, 1088-1093, 1095-1100) -/
def pairFigure (c d : Curve α) (name : String) : Except PyErr (Figure α) := do
  let f ← Figure.empty.draw c
  let f ← f.draw d
  return f.axes name

/-- The figures of `--stall3D --plot` (airfoilprep.py ll. 1035-1058) -/
def stallFigures (af af3D : AfSet α) : Except PyErr (List (Figure α)) :=
  (af.polars.zip af3D.polars).foldlM (fun figs (p, p3D) => do
    let f1 ← pairFigure ⟨p.alpha, p.cl, .word "2D"⟩ ⟨p3D.alpha, p3D.cl, .word "3D"⟩ "lift coefficient"
    let f2 ← pairFigure ⟨p.alpha, p.cd, .word "2D"⟩ ⟨p3D.alpha, p3D.cd, .word "3D"⟩ "drag coefficient"
    return figs ++ [f1, f2]) []

/-- The figures of `--extrap --plot` (airfoilprep.py ll. 1075-1105): the extrapolated curve is drawn first; the legend names both. -/
def extrapFigures (af afext : AfSet α) : Except PyErr (List (Figure α)) :=
  (af.polars.zip afext.polars).foldlM (fun figs (p, pext) => do
    let f1 ← pairFigure ⟨pext.alpha, pext.cl, .word "extrap"⟩ ⟨p.alpha, p.cl, .word "orig"⟩ "lift coefficient"
    let f2 ← pairFigure ⟨pext.alpha, pext.cd, .word "extrap"⟩ ⟨p.alpha, p.cd, .word "orig"⟩ "drag coefficient"
    let f3 ← pairFigure ⟨pext.alpha, pext.cm, .word "extrap"⟩ ⟨p.alpha, p.cm, .word "orig"⟩ "moment coefficient"
    return figs ++ [f1, f2, f3]) []

/-- One curve without a label (airfoilprep.py ll. 1126-1131, 1133-1138, 1140-1145); the Reynolds number is written beside it. -/
def plainFigure (p : Polar α) (y : List α) (name : String) : Except PyErr (Figure α) := do
  let f ← Figure.empty.draw ⟨p.alpha, y, .none⟩
  return f.axes name

/-- The figures of `--blend --plot` (airfoilprep.py ll. 1123-1147) -/
def blendFigures (afOut : AfSet α) : Except PyErr (List (Figure α)) :=
  afOut.polars.foldlM (fun figs p => do
    let f1 ← plainFigure p p.cl "lift coefficient"
    let f2 ← plainFigure p p.cd "drag coefficient"
    let f3 ← plainFigure p p.cm "moment coefficient"
    return figs ++ [f1, f2, f3]) []

/-- The last steps of every action with `--plot`: `--common`, writing, then the figures -/
def cliFinishPlot (fit : PolyFit α) (fmt : α → List Char) (common : Bool) (out : List Char) (fs : FS) (r : Except PyErr (AfSet α))
    (figures : AfSet α → Except PyErr (List (Figure α))) : FS × Except PyErr (List (Figure α)) :=
  match (do let af ← r; if common then af.interpToCommonAlpha none else return af) with
  | .error e => (fs, .error e)
  | .ok af =>
    match af.writeFile fit fmt out fs with
    | (fs', .error e) => (fs', .error e)
    | (fs', .ok _) => (fs', figures af)

/-- The main program with `--plot` (airfoilprep.py ll. 1014-1147): the files afterwards, and the figures shown.  Without an action
nothing is shown. -/
def cliMainPlot (lex : Lex α) (fit : PolyFit α) (fmt : α → List Char) (fuel : ℕ) (a : CliArgs) (fs : FS) :
    Option (FS × Except PyErr (List (Figure α))) :=
  match a.stall3D with
  | some (s1, s2, s3) =>
    let out := a.out.getD ((splitext a.src).1 ++ "_3D".toList ++ (splitext a.src).2)
    match readFile lex fuel a.src fs with
    | none => none
    | some (.error e) => some (fs, .error e)
    | some (.ok af) => some (cliFinishPlot fit fmt a.common out fs (do
        let f1 ← lex.toFloat s1
        let f2 ← lex.toFloat s2
        let f3 ← lex.toFloat s3
        af.correction3D fit ⟨f1, f2, f3, Num.nat 30, -Num.nat 5, Num.nat 5⟩) (stallFigures af))
  | none =>
    match a.extrap with
    | some c =>
      let out := a.out.getD ((splitext a.src).1 ++ "_extrap".toList ++ (splitext a.src).2)
      match readFile lex fuel a.src fs with
      | none => none
      | some (.error e) => some (fs, .error e)
      | some (.ok af) => some (cliFinishPlot fit fmt a.common out fs (do
          af.extrapolate (← lex.toFloat c) none (Num.nat 1 / Num.nat 1000)) (extrapFigures af))
    | none =>
      match a.blend with
      | some (other, w) =>
        let b := splitext (baseName other)
        let out := a.out.getD ((splitext a.src).1 ++ '+' :: b.1 ++ "_blend".toList ++ w ++ b.2)
        match readFile lex fuel a.src fs with
        | none => none
        | some (.error e) => some (fs, .error e)
        | some (.ok af1) =>
          match readFile lex fuel other fs with
          | none => none
          | some r => some (cliFinishPlot fit fmt a.common out fs (do
              let af2 ← r
              af1.blend af2 (← lex.toFloat w)) blendFigures)
      | none => some (fs, .ok [])

end Verif
