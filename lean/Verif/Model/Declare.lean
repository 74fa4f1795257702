import Verif.Model.Component

/-!
# Model of the `setup` methods of `ccblade/ccblade_component.py`

A component announces in `setup` its variables with their shapes and, by `declare_partials`, the blocks its Jacobian may have.
OpenMDAO is not part of the sources; modelled from its documentation: names given to `declare_partials` are glob patterns, a
pattern that fits no variable raises `ValueError`, a later declaration of a pair replaces an earlier one, `dependent=False` removes
it, and an assignment to a block that is not declared raises `KeyError`, one of the wrong shape `ValueError`.
-/

namespace Verif

variable {α : Type} [Num α]

/-- The rest of a name after `*`: some tail of it fits -/
def globStar (rest : List Char → Bool) : List Char → Bool
  | [] => rest []
  | c :: s => rest (c :: s) || globStar rest s

/-- A name fits a pattern (of the special characters of globs only `*` occurs) -/
def glob : List Char → List Char → Bool
  | [], s => s.isEmpty
  | '*' :: p, s => globStar (glob p) s
  | c :: p, d :: s => c == d && glob p s
  | _ :: _, [] => false

/-- One call of `declare_partials`: `pattern` are the pairs of `rows`, `cols`, if given -/
structure Decl where
  outs : List String
  ins : List String
  dependent : Bool := true
  pattern : Option (List (ℕ × ℕ)) := none

/-- The blocks declared so far, with the positions of the entries that may be nonzero (all of them for `none`) -/
abbrev Declared := List ((String × String) × Option (List (ℕ × ℕ)))

/-- The variables that fit a list of patterns -/
def fitting (vars pats : List String) : List String := vars.filter fun v => pats.any fun p => glob p.toList v.toList

/-- All patterns fit something -/
def allFit (vars pats : List String) : Bool := pats.all fun p => vars.any fun v => glob p.toList v.toList

/-- The positions lie inside a block with as many rows and columns as the two variables have entries -/
def inShape (rows cols : Option ℕ) (l : List (ℕ × ℕ)) : Bool :=
  match rows, cols with
  | some r, some c => l.all fun p => p.1 < r && p.2 < c
  | _, _ => false

/-- `declare_partials` on a component with the outputs and (continuous) inputs given with their numbers of entries -/
def declare (outs ins : List (String × ℕ)) (D : Declared) (d : Decl) : Except PyErr Declared :=
  let os := fitting (outs.map Prod.fst) d.outs
  let is := fitting (ins.map Prod.fst) d.ins
  let keys := os.flatMap fun o => is.map fun i => (o, i)
  if !(allFit (outs.map Prod.fst) d.outs && allFit (ins.map Prod.fst) d.ins) then .error .valueError
  else if d.pattern.any fun l => keys.any fun k => !inShape (outs.lookup k.1) (ins.lookup k.2) l then .error .valueError
  else
    let rest := D.filter fun e => !keys.contains e.1
    .ok (if d.dependent then rest ++ keys.map (·, d.pattern) else rest)

/-- The variables of a component and the declarations of its `setup` -/
structure Setup where
  outs : List (String × ℕ)
  ins : List (String × ℕ)
  decls : List Decl

/-- The declared blocks after `setup` -/
def Setup.declared (s : Setup) : Except PyErr Declared := s.decls.foldlM (declare s.outs s.ins) []

/-- The assignments of `compute_partials`: every block has to be declared and of the shape of its variables -/
def Setup.assign (s : Setup) (D : Declared) : Jac α → Except PyErr Unit
  | [] => .ok ()
  | (k, m) :: rest =>
    match D.lookup k, s.outs.lookup k.1, s.ins.lookup k.2 with
    | some _, some r, some c => if m.rows = r ∧ m.cols = c then s.assign D rest else .error .valueError
    | _, _, _ => .error .keyError

/-- `CCBladeGeometry.setup` (ccblade_component.py ll. 43-62) -/
def geomSetup (n : ℕ) : Setup where
  ins := [("Rtip", 1), ("precurve_in", n), ("presweep_in", n), ("precone", 1)]
  outs := [("R", 1), ("diameter", 1), ("precurveTip", 1), ("presweepTip", 1)]
  decls := [
    { outs := ["R"], ins := ["Rtip", "precone"] },
    { outs := ["diameter"], ins := ["Rtip", "precone"] },
    { outs := ["R", "diameter"], ins := ["precurve_in"], pattern := some [(0, n - 1)] },
    { outs := ["precurveTip"], ins := ["precurve_in"], pattern := some [(0, n - 1)] },
    { outs := ["presweepTip"], ins := ["presweep_in"], pattern := some [(0, n - 1)] }]

/-- The continuous inputs that `CCBladeLoads` and `CCBladeEvaluate` share (ccblade_component.py ll. 184-186, 189-211, 720-734,
739-748) -/
def bladeVars (n nAoa nRe nTab : ℕ) : List (String × ℕ) :=
  [("V_load", 1), ("Omega_load", 1), ("pitch_load", 1), ("r", n), ("chord", n), ("theta", n), ("Rhub", 1), ("Rtip", 1),
   ("hub_height", 1), ("precone", 1), ("tilt", 1), ("yaw", 1), ("precurve", n), ("precurveTip", 1),
   ("airfoils_cl", n * nAoa * nRe * nTab), ("airfoils_cd", n * nAoa * nRe * nTab), ("airfoils_cm", n * nAoa * nRe * nTab),
   ("airfoils_aoa", nAoa), ("airfoils_Re", nRe), ("rho", 1), ("mu", 1), ("shearExp", 1)]

/-- `CCBladeLoads.setup` (ccblade_component.py ll. 174-267) -/
def loadsSetup (n nAoa nRe nTab : ℕ) : Setup where
  ins := bladeVars n nAoa nRe nTab ++ [("azimuth_load", 1)]
  outs := [("loads_r", n), ("loads_Px", n), ("loads_Py", n), ("loads_Pz", n)]
  decls := [
    { outs := ["loads_Px"]
      ins := ["Omega_load", "Rhub", "Rtip", "V_load", "azimuth_load", "chord", "hub_height", "pitch_load", "precone", "precurve", "r",
        "theta", "tilt", "yaw", "shearExp"] },
    { outs := ["loads_Py"]
      ins := ["Omega_load", "Rhub", "Rtip", "V_load", "azimuth_load", "chord", "hub_height", "pitch_load", "precone", "precurve", "r",
        "theta", "tilt", "yaw", "shearExp"] },
    { outs := ["loads_Pz"], ins := ["*"], dependent := false },
    { outs := ["loads_r"], ins := ["r"], pattern := some ((List.range n).map fun i => (i, i)) },
    { outs := ["*"], ins := ["airfoils*"], dependent := false }]

/-- `CCBladeEvaluate.setup` (ccblade_component.py ll. 710-766) -/
def evalSetup (n nAoa nRe nTab : ℕ) : Setup where
  ins := bladeVars n nAoa nRe nTab ++ [("presweep", n), ("presweepTip", 1)]
  outs := [("P", 1), ("Mb", 1), ("Fhub", 3), ("Mhub", 3), ("CP", 1), ("CMb", 1), ("CFhub", 3), ("CMhub", 3)]
  decls := [
    { outs := ["*"], ins := ["*"] },
    { outs := ["*"], ins := ["airfoils*"], dependent := false }]

end Verif
