import Verif.Model.Bem

/-!
# Model of the reverse-mode kernels of `ccblade/src/bem.f90`

One reverse direction (one value of `nd`).  The loops are kept as loops over a state of arrays.
-/

namespace Verif

variable {α : Type} [Num α]

/-- `f(i) = f(i) + v` -/
def addAt (f : ℕ → α) (i : ℕ) (v : α) (j : ℕ) : α := if j = i then f j + v else f j

/-- `f(i) = v` -/
def setAt (f : ℕ → α) (i : ℕ) (v : α) (j : ℕ) : α := if j = i then v else f j

/-- The arrays updated by the loop over the segments (bem.f90 ll. 1147-1168). -/
structure LenState (α : Type) where
  sb : ℕ → α
  precurveb : ℕ → α
  presweepb : ℕ → α
  rb : ℕ → α

/-- Body of the loop at station `i+1` (Fortran `i = i+2`) (bem.f90 ll. 1149-1166). -/
def lenStep (r precurve presweep : ℕ → α) (i : ℕ) (st : LenState α) : LenState α :=
  let arg := sq (precurve (i + 1) - precurve i) + sq (presweep (i + 1) - presweep i) + sq (r (i + 1) - r i)
  let tempb8 := if arg == 0 then 0 else st.sb (i + 1) / (Num.nat 2 * Num.sqrt arg)
  let tempb9 := Num.nat 2 * (precurve (i + 1) - precurve i) * tempb8
  let tempb10 := Num.nat 2 * (presweep (i + 1) - presweep i) * tempb8
  let tempb11 := Num.nat 2 * (r (i + 1) - r i) * tempb8
  { sb := setAt (addAt st.sb i (st.sb (i + 1))) (i + 1) 0
    precurveb := addAt (addAt st.precurveb (i + 1) tempb9) i (-tempb9)
    presweepb := addAt (addAt st.presweepb (i + 1) tempb10) i (-tempb10)
    rb := addAt (addAt st.rb (i + 1) tempb11) i (-tempb11) }

/-- `DO i=n,2,-1` (bem.f90 ll. 1147-1168) for the remaining `m` segments. -/
def lenLoop (r precurve presweep : ℕ → α) : ℕ → LenState α → LenState α
  | 0, st => st
  | i + 1, st => lenLoop r precurve presweep i (lenStep r precurve presweep i st)

/-- Adjoint of the angle of segment `i` to `i+1` with weight `w`, first argument of `ATAN2`
(bem.f90 ll. 1173-1174, 1183, 1185-1186, 1196-1197). -/
def segAdjX (x z : ℕ → α) (w : α) (i : ℕ) : α :=
  (z (i + 1) - z i) * w / (sq (x i - x (i + 1)) + sq (z (i + 1) - z i))

/-- The same for the second argument (bem.f90 ll. 1175-1176, 1184, 1187-1188, 1198-1199). -/
def segAdjZ (x z : ℕ → α) (w : α) (i : ℕ) : α :=
  -((x i - x (i + 1)) * w / (sq (x i - x (i + 1)) + sq (z (i + 1) - z i)))

/-- Adjoints of the coordinates through the cone angles (bem.f90 ll. 1172-1203): `(x_azb, z_azb)`.
`tempb1` is declared with length `n` (l. 1130) and assigned from and used with slices of length `n-2`
(ll. 1182-1188); the model has the conforming `n-2` elements. -/
def coneAdj (n : ℕ) (x z z_azb coneb : ℕ → α) : (ℕ → α) × (ℕ → α) :=
  let tempb := segAdjX x z (coneb (n - 1)) (n - 2)
  let tempb0 := segAdjZ x z (coneb (n - 1)) (n - 2)
  let xb := addAt (addAt (fun _ => 0) (n - 2) tempb) (n - 1) (-tempb)
  let zb := addAt (addAt z_azb (n - 1) tempb0) (n - 2) (-tempb0)
  let tempb1 := fun j => 1 / Num.nat 2 * coneb (j + 1)
  let tempb2 := fun j => segAdjX x z (tempb1 j) j
  let tempb3 := fun j => segAdjZ x z (tempb1 j) j
  let tempb4 := fun j => segAdjX x z (tempb1 j) (j + 1)
  let tempb5 := fun j => segAdjZ x z (tempb1 j) (j + 1)
  -- ll. 1189-1194: slices 1:n-2, 2:n-1, 3:n
  let xb := fun j => if j < n - 2 then xb j + tempb2 j else xb j
  let xb := fun j => if 1 ≤ j ∧ j < n - 1 then xb j + tempb4 (j - 1) - tempb2 (j - 1) else xb j
  let zb := fun j => if 1 ≤ j ∧ j < n - 1 then zb j + tempb3 (j - 1) - tempb5 (j - 1) else zb j
  let zb := fun j => if j < n - 2 then zb j - tempb3 j else zb j
  let xb := fun j => if 2 ≤ j ∧ j < n then xb j - tempb4 (j - 2) else xb j
  let zb := fun j => if 2 ≤ j ∧ j < n then zb j + tempb5 (j - 2) else zb j
  -- ll. 1196-1203; `coneb(1)` is not reset before
  let tempb6 := segAdjX x z (coneb 0) 0
  let tempb7 := segAdjZ x z (coneb 0) 0
  (addAt (addAt xb 0 tempb6) 1 (-tempb6), addAt (addAt zb 1 tempb7) 0 (-tempb7))

/-- Outputs of `DEFINECURVATURE_BV`. -/
structure CurvBvOut (α : Type) where
  rb : ℕ → α
  precurveb : ℕ → α
  presweepb : ℕ → α
  preconeb : α

/-- `SUBROUTINE DEFINECURVATURE_BV` (bem.f90 ll. 1098-1212) -/
def defineCurvatureBv (n : ℕ) (r precurve presweep : ℕ → α) (precone : α) (z_azb coneb sb : ℕ → α) : CurvBvOut α :=
  let x := fun i => -(r i * Num.sin precone) + precurve i * Num.cos precone
  let z := fun i => r i * Num.cos precone + precurve i * Num.sin precone
  let l := lenLoop r precurve presweep (n - 1) ⟨sb, fun _ => 0, fun _ => 0, fun _ => 0⟩
  let b := coneAdj n x z z_azb coneb
  { rb := fun i => l.rb i + Num.cos precone * b.2 i - Num.sin precone * b.1 i
    precurveb := fun i => l.precurveb i + Num.cos precone * b.1 i + Num.sin precone * b.2 i
    presweepb := l.presweepb
    preconeb := Num.cos precone * sumTo n (fun i => precurve i * b.2 i)
      - Num.sin precone * sumTo n (fun i => precurve i * b.1 i)
      - Num.cos precone * sumTo n (fun i => r i * b.1 i) - Num.sin precone * sumTo n (fun i => r i * b.2 i) }

/-- The reverse seeds `tb, yb, zb, qb, mb` of `THRUSTTORQUE_BV`. -/
structure TTSeed (α : Type) where
  tb : α
  yb : α
  zb : α
  qb : α
  mb : α

/-- The arrays updated by the integration loop (bem.f90 ll. 1016-1047). -/
structure TTState (α : Type) where
  sb : ℕ → α
  vertb : ℕ → α
  torqueb : ℕ → α
  flapb : ℕ → α
  sideb : ℕ → α
  thrustb : ℕ → α

/-- Body of the loop for the interval `i` to `i+1` (bem.f90 ll. 1023-1046). -/
def ttStep (thrust side vert torque flap s : ℕ → α) (w : TTSeed α) (i : ℕ) (st : TTState α) : TTState α :=
  let ds := s (i + 1) - s i
  let h := 1 / Num.nat 2
  let dsb := (flap i + flap (i + 1)) * h * w.mb + (torque i + torque (i + 1)) * h * w.qb
    + (vert i + vert (i + 1)) * h * w.zb + (side i + side (i + 1)) * h * w.yb
    + (thrust i + thrust (i + 1)) * h * w.tb
  let both := fun (f : ℕ → α) (v : α) => addAt (addAt f i v) (i + 1) v
  { flapb := both st.flapb (ds * h * w.mb)
    torqueb := both st.torqueb (ds * h * w.qb)
    vertb := both st.vertb (ds * h * w.zb)
    sideb := both st.sideb (ds * h * w.yb)
    thrustb := both st.thrustb (ds * h * w.tb)
    sb := addAt (addAt st.sb (i + 1) dsb) i (-dsb) }

/-- `DO i=n+1,1,-1` (bem.f90 ll. 1022-1047) for the remaining `m` intervals. -/
def ttLoop (thrust side vert torque flap s : ℕ → α) (w : TTSeed α) : ℕ → TTState α → TTState α
  | 0, st => st
  | i + 1, st => ttLoop thrust side vert torque flap s w i (ttStep thrust side vert torque flap s w i st)

/-- Outputs of `THRUSTTORQUE_BV`. -/
structure TTBvOut (α : Type) where
  npb : ℕ → α
  tpb : ℕ → α
  rb : ℕ → α
  precurveb : ℕ → α
  presweepb : ℕ → α
  preconeb : α
  rhubb : α
  rtipb : α
  precurvetipb : α
  presweeptipb : α

/-- `SUBROUTINE THRUSTTORQUE_BV` (bem.f90 ll. 955-1091).  An output array of length `n` is given by its elements
`2:n+1` of the padded array. -/
def thrustTorqueBv (n : ℕ) (Np Tp r precurve presweep : ℕ → α) (precone Rhub Rtip precurveTip presweepTip : α)
    (w : TTSeed α) : TTBvOut α :=
  let rfull := padded n Rhub r Rtip
  let curvefull := padded n 0 precurve precurveTip
  let sweepfull := padded n 0 presweep presweepTip
  let npfull := padded n 0 Np 0
  let tpfull := padded n 0 Tp 0
  let c := defineCurvature (n + 2) rfull curvefull sweepfull precone
  let thrust := fun i => npfull i * Num.cos (c.cone i)
  let side := tpfull
  let vert := fun i => npfull i * Num.sin (c.cone i)
  let torque := fun i => tpfull i * c.z_az i
  let flap := fun i => npfull i * c.z_az i
  let l := ttLoop thrust side vert torque flap c.s w (n + 1)
    ⟨fun _ => 0, fun _ => 0, fun _ => 0, fun _ => 0, fun _ => 0, fun _ => 0⟩
  let npfullb := fun i => c.z_az i * l.flapb i + Num.sin (c.cone i) * l.vertb i + Num.cos (c.cone i) * l.thrustb i
  let z_azb := fun i => npfull i * l.flapb i + tpfull i * l.torqueb i
  let tpfullb := fun i => c.z_az i * l.torqueb i + l.sideb i
  let coneb := fun i => Num.cos (c.cone i) * npfull i * l.vertb i - Num.sin (c.cone i) * npfull i * l.thrustb i
  let g := defineCurvatureBv (n + 2) rfull curvefull sweepfull precone z_azb coneb l.sb
  { npb := fun i => npfullb (i + 1)
    tpb := fun i => tpfullb (i + 1)
    rb := fun i => g.rb (i + 1)
    precurveb := fun i => g.precurveb (i + 1)
    presweepb := fun i => g.presweepb (i + 1)
    preconeb := g.preconeb
    rhubb := g.rb 0
    rtipb := g.rb (n + 1)
    precurvetipb := g.precurveb (n + 1)
    presweeptipb := g.presweepb (n + 1) }

end Verif
