import Verif.Model.Component

/-!
# The units announced by the components

The units given to `add_input` and `add_output` in `ccblade/ccblade_component.py`.  OpenMDAO converts a value that is given or asked
for in other units by the ratio of the two.
-/

namespace Verif

/-- The continuous variables of a component with their units, `none` where the argument `units` is omitted -/
abbrev UnitTable := List (String × Option String)

/-- `CCBladeGeometry` (ccblade_component.py ll. 46-54) -/
def geomUnits : UnitTable :=
  [("Rtip", some "m"), ("precurve_in", some "m"), ("presweep_in", some "m"), ("precone", some "deg"),
   ("R", some "m"), ("diameter", some "m"), ("precurveTip", some "m"), ("presweepTip", some "m")]

/-- `CCBladeLoads` (ccblade_component.py ll. 184-222) -/
def loadsUnits : UnitTable :=
  [("V_load", some "m/s"), ("Omega_load", some "rpm"), ("pitch_load", some "deg"), ("azimuth_load", some "deg"),
   ("r", some "m"), ("chord", some "m"), ("theta", some "deg"), ("Rhub", some "m"), ("Rtip", some "m"), ("hub_height", some "m"),
   ("precone", some "deg"), ("tilt", some "deg"), ("yaw", some "deg"), ("precurve", some "m"), ("precurveTip", some "m"),
   ("airfoils_cl", none), ("airfoils_cd", none), ("airfoils_cm", none), ("airfoils_aoa", some "deg"), ("airfoils_Re", none),
   ("rho", some "kg/m**3"), ("mu", some "kg/(m*s)"), ("shearExp", none),
   ("loads_r", some "m"), ("loads_Px", some "N/m"), ("loads_Py", some "N/m"), ("loads_Pz", some "N/m")]

/-- `CCBladeTwist` (ccblade_component.py ll. 403-530) -/
def twistUnits : UnitTable :=
  [("Uhub", some "m/s"), ("tsr", none), ("pitch", some "deg"), ("r", some "m"), ("s_opt_chord", none), ("s_opt_theta", none),
   ("chord", some "m"), ("theta_in", some "rad"), ("aoa_op", some "rad"), ("airfoils_aoa", some "deg"), ("airfoils_cl", none),
   ("airfoils_cd", none), ("airfoils_cm", none), ("airfoils_Re", none), ("Rhub", some "m"), ("Rtip", some "m"), ("rthick", none),
   ("precurve", some "m"), ("precurveTip", some "m"), ("presweep", some "m"), ("presweepTip", some "m"), ("hub_height", some "m"),
   ("precone", some "deg"), ("tilt", some "deg"), ("yaw", some "deg"), ("rho", some "kg/m**3"), ("mu", some "kg/(m*s)"),
   ("shearExp", none),
   ("theta", some "rad"), ("CP", none), ("CM", none), ("local_airfoil_velocities", some "m/s"), ("P", some "W"), ("T", some "N*m"),
   ("Q", some "N*m"), ("M", some "N*m"), ("a", none), ("ap", none), ("alpha", some "deg"), ("cl", none), ("cd", none),
   ("cl_n_opt", none), ("cd_n_opt", none), ("Px_b", some "N/m"), ("Py_b", some "N/m"), ("Pz_b", some "N/m"), ("Px_af", some "N/m"),
   ("Py_af", some "N/m"), ("Pz_af", some "N/m"), ("LiftF", some "N/m"), ("DragF", some "N/m"), ("L_n_opt", some "N/m"),
   ("D_n_opt", some "N/m")]

/-- `CCBladeEvaluate` (ccblade_component.py ll. 720-763) -/
def evalUnits : UnitTable :=
  [("V_load", some "m/s"), ("Omega_load", some "rpm"), ("pitch_load", some "deg"),
   ("r", some "m"), ("chord", some "m"), ("theta", some "deg"), ("Rhub", some "m"), ("Rtip", some "m"), ("hub_height", some "m"),
   ("precone", some "deg"), ("tilt", some "deg"), ("yaw", some "deg"), ("precurve", some "m"), ("precurveTip", some "m"),
   ("presweep", some "m"), ("presweepTip", some "m"),
   ("airfoils_cl", none), ("airfoils_cd", none), ("airfoils_cm", none), ("airfoils_aoa", some "deg"), ("airfoils_Re", none),
   ("rho", some "kg/m**3"), ("mu", some "kg/(m*s)"), ("shearExp", none),
   ("P", some "W"), ("Mb", some "N/m"), ("Fhub", some "N"), ("Mhub", some "N*m"), ("CP", none), ("CMb", none), ("CFhub", none),
   ("CMhub", none)]

end Verif
