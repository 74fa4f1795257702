import Verif.Lemmas.Adjoint
import Verif.Lemmas.AeroDyn
import Verif.Lemmas.AfSearch
import Verif.Lemmas.Atan2
import Verif.Lemmas.Attached
import Verif.Lemmas.Bracket
import Verif.Lemmas.CCBlade
import Verif.Lemmas.CSystem
import Verif.Lemmas.Component
import Verif.Lemmas.Constructor
import Verif.Lemmas.Demo
import Verif.Lemmas.Extrapolate
import Verif.Lemmas.History
import Verif.Lemmas.Implicit
import Verif.Lemmas.Induction
import Verif.Lemmas.InductionDv
import Verif.Lemmas.Interp
import Verif.Lemmas.PlainBlade
import Verif.Lemmas.Polar
import Verif.Lemmas.Sectors
import Verif.Lemmas.Units
import Verif.Lemmas.WindDir
import Verif.Lemmas.XR
import Verif.Model.AeroDyn
import Verif.Model.AirfoilPrep
import Verif.Model.Bem
import Verif.Model.BemBv
import Verif.Model.BemDv
import Verif.Model.CCAirfoil
import Verif.Model.CCBlade
import Verif.Model.CSystem
import Verif.Model.Component
import Verif.Model.Declare
import Verif.Model.Dtype
import Verif.Model.EvalArrays
import Verif.Model.Files
import Verif.Model.Lengths
import Verif.Model.Plot
import Verif.Model.Py
import Verif.Model.Units
import Verif.Num
import Verif.NumAttr
import Verif.Props.Adjoint
import Verif.Props.AeroDyn
import Verif.Props.AeroDynWrite
import Verif.Props.AfSearch
import Verif.Props.AirfoilFile
import Verif.Props.AirfoilOps
import Verif.Props.Attached
import Verif.Props.AttachedContinuity
import Verif.Props.AttachedSolved
import Verif.Props.Betz
import Verif.Props.BladeCount
import Verif.Props.Blades
import Verif.Props.Bracket
import Verif.Props.Brake
import Verif.Props.CSystem
import Verif.Props.CSystemDeriv
import Verif.Props.Chord
import Verif.Props.Cli
import Verif.Props.Component
import Verif.Props.ComponentBlade
import Verif.Props.Constructor
import Verif.Props.Continuity
import Verif.Props.Correction
import Verif.Props.Declare
import Verif.Props.DerivFlag
import Verif.Props.DerivNaN
import Verif.Props.Drag
import Verif.Props.Dtype
import Verif.Props.EvalArrays
import Verif.Props.EvalComponent
import Verif.Props.EvalTotal
import Verif.Props.Exact
import Verif.Props.Extrapolate
import Verif.Props.ExtrapolateOrder
import Verif.Props.Feather
import Verif.Props.Flap
import Verif.Props.Geometry
import Verif.Props.GeometryDeriv
import Verif.Props.History
import Verif.Props.Induction
import Verif.Props.InductionDeriv
import Verif.Props.Integration
import Verif.Props.Iterations
import Verif.Props.LastSector
import Verif.Props.Lengths
import Verif.Props.LoadDict
import Verif.Props.Loads
import Verif.Props.LoadsComponent
import Verif.Props.LoadsDeriv
import Verif.Props.Losses
import Verif.Props.Misalign
import Verif.Props.MomentCurve
import Verif.Props.Moments
import Verif.Props.MoreDrag
import Verif.Props.MoreLift
import Verif.Props.Operating
import Verif.Props.PitchCurve
import Verif.Props.PitchTwist
import Verif.Props.Plot
import Verif.Props.Polars
import Verif.Props.ReDeriv
import Verif.Props.Refine
import Verif.Props.RefineAttached
import Verif.Props.Refused
import Verif.Props.Resultant
import Verif.Props.RootMoment
import Verif.Props.Rotor
import Verif.Props.RotorDict
import Verif.Props.RotorSpeed
import Verif.Props.RotorTotal
import Verif.Props.Scaling
import Verif.Props.SecDeriv
import Verif.Props.SectorLimit
import Verif.Props.Solidity
import Verif.Props.Solve
import Verif.Props.StallAngle
import Verif.Props.StallParam
import Verif.Props.SwirlPitch
import Verif.Props.SwirlThrust
import Verif.Props.Tolerance
import Verif.Props.Twist
import Verif.Props.TwistOutputs
import Verif.Props.Units
import Verif.Props.Unsteady
import Verif.Props.UnsteadyExists
import Verif.Props.WindSpeed
import Verif.Spec.AeroDyn
import Verif.Spec.AfSearch
import Verif.Spec.Demo
import Verif.Spec.Polar
import Verif.Spec.Resultant
import Verif.Spec.Vec
import Verif.XR
