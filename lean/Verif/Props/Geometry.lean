import Verif.Model.Bem
import Verif.Props.CSystem
import Mathlib.Analysis.SpecialFunctions.Complex.Arg
import Mathlib.Analysis.Real.Pi.Bounds
import Mathlib.Tactic.Positivity

/-!
# Blade geometry and inflow (C07 - C12)

Angles of the Fortran kernels are in radians.
-/

namespace Verif
open Spec

/-- radians of an angle in degrees -/
noncomputable def rad (t : ℝ) : ℝ := t * (Real.pi / 180)

/-- **C07** The azimuth-frame coordinates are the documented conversion of (precurve, presweep, r) by the precone angle. -/
theorem azCoords_eq_conversion (n : ℕ) (r pc ps : ℕ → ℝ) (p : ℝ) (i : ℕ) :
    let c := defineCurvature n r pc ps (rad p)
    (⟨c.x_az i, c.y_az i, c.z_az i⟩ : V3) = ((DirVec.mk' (pc i) (ps i) (r i)).bladeToAzimuth p).vec ∧
    (⟨c.x_az i, c.y_az i, c.z_az i⟩ : V3) = fromTurnedFrame (V3.smul (-1) .ey) (rad p) ⟨pc i, ps i, r i⟩ := by
  have h : (⟨(defineCurvature n r pc ps (rad p)).x_az i, (defineCurvature n r pc ps (rad p)).y_az i,
      (defineCurvature n r pc ps (rad p)).z_az i⟩ : V3) = ((DirVec.mk' (pc i) (ps i) (r i)).bladeToAzimuth p).vec := by
    simp only [defineCurvature, xAz, yAz, zAz, rad]
    conv_unfold
  exact ⟨h, h.trans (conv_eq_doc .bladeToAzimuth (DirVec.mk' (pc i) (ps i) (r i)) p)⟩

/-- **C07** Rotating the azimuth-frame coordinates back recovers (precurve, presweep, r). -/
theorem azCoords_back (n : ℕ) (r pc ps : ℕ → ℝ) (p : ℝ) (i : ℕ) :
    let c := defineCurvature n r pc ps (rad p)
    ((DirVec.mk' (c.x_az i) (c.y_az i) (c.z_az i)).azimuthToBlade p).vec = ⟨pc i, ps i, r i⟩ := by
  have h := conv_eq_doc .azimuthToBlade (DirVec.mk' ((defineCurvature n r pc ps (rad p)).x_az i)
    ((defineCurvature n r pc ps (rad p)).y_az i) ((defineCurvature n r pc ps (rad p)).z_az i)) p
  have h1 := (azCoords_eq_conversion n r pc ps p i).1
  have h2 := conv_roundtrip .bladeToAzimuth (DirVec.mk' (pc i) (ps i) (r i)) p
  have h3 := conv_eq_doc .azimuthToBlade ((DirVec.mk' (pc i) (ps i) (r i)).bladeToAzimuth p) p
  simp only [Conv.back, Conv.call] at h h2 h3
  intro c
  rw [h]
  refine Eq.trans ?_ h2
  rw [h3, ← h1]
  rfl

example : (defineCurvature 2 (fun i => 10 + (i : ℝ)) (fun i => (i : ℝ)) (fun _ => 3) 0).x_az 1 = 1 ∧
    (defineCurvature 2 (fun i => 10 + (i : ℝ)) (fun i => (i : ℝ)) (fun _ => 3) 0).z_az 1 = 11 := by
  simp [defineCurvature, xAz, zAz, num_real]; norm_num

/-- **C08** For constant precurve and strictly increasing radius the local cone angle equals the precone angle at every
station. -/
theorem cone_of_straight_blade (n : ℕ) (hn : 2 ≤ n) (r pc ps : ℕ → ℝ) (p : ℝ)
    (hp : p ∈ Set.Ioc (-Real.pi) Real.pi)
    (hr : ∀ i, i + 1 < n → r i < r (i + 1)) (hpc : ∀ i, i < n → pc i = pc 0) (i : ℕ) (hi : i < n) :
    (defineCurvature n r pc ps p).cone i = p := by
  have seg : ∀ j, j + 1 < n → segAngle (xAz r pc p) (zAz r pc p) j = p := by
    intro j hj
    have e1 : pc (j + 1) = pc j := (hpc _ hj).trans (hpc j (by omega)).symm
    have hd : 0 < r (j + 1) - r j := sub_pos.mpr (hr j hj)
    simp only [segAngle, xAz, zAz, num_real, e1]
    have e : (⟨r (j + 1) * Real.cos p + pc j * Real.sin p - (r j * Real.cos p + pc j * Real.sin p),
        -(-r (j + 1) * Real.sin p + pc j * Real.cos p - (-r j * Real.sin p + pc j * Real.cos p))⟩ : ℂ)
        = ((r (j + 1) - r j : ℝ) : ℂ) * (Complex.cos p + Complex.sin p * Complex.I) := by
      apply Complex.ext
      · simp [← Complex.ofReal_cos, ← Complex.ofReal_sin, -Complex.ofReal_sub]; ring
      · simp [← Complex.ofReal_cos, ← Complex.ofReal_sin, -Complex.ofReal_sub]; ring
    rw [e]
    exact Complex.arg_mul_cos_add_sin_mul_I hd hp
  simp only [defineCurvature, coneAngle]
  split_ifs with h0 h1
  · exact seg 0 (by omega)
  · exact seg (n - 2) (by omega)
  · have e : i - 1 + 1 = i := by omega
    rw [seg (i - 1) (by omega), seg i (by omega)]
    simp only [num_real]
    push_cast
    ring

/-- A straight, coned blade with three stations. -/
example : (defineCurvature 3 (fun i => 1 + (i : ℝ)) (fun _ => 2) (fun _ => 0) (1 / 10)).cone 1 = 1 / 10 := by
  have hpi := Real.pi_gt_three
  refine cone_of_straight_blade 3 (by norm_num) _ _ _ _ ⟨by linarith, by linarith⟩ ?_ ?_ 1 (by norm_num)
  · intro i _; push_cast; linarith
  · intros; rfl

/-- The point of the blade at station `i`. -/
def bladePoint (r pc ps : ℕ → ℝ) (i : ℕ) : V3 := ⟨pc i, ps i, r i⟩

/-- Euclidean distance. -/
noncomputable def V3dist (v w : V3) : ℝ := Real.sqrt ((v.x - w.x) ^ 2 + (v.y - w.y) ^ 2 + (v.z - w.z) ^ 2)

/-- **C09** The path length starts at zero and grows by the Euclidean distance between successive blade points. -/
theorem pathLength_increments (n : ℕ) (r pc ps : ℕ → ℝ) (p : ℝ) :
    (defineCurvature n r pc ps p).s 0 = 0 ∧ ∀ i,
    (defineCurvature n r pc ps p).s (i + 1) - (defineCurvature n r pc ps p).s i
      = V3dist (bladePoint r pc ps (i + 1)) (bladePoint r pc ps i) := by
  refine ⟨rfl, fun i => ?_⟩
  simp only [defineCurvature, pathLength, segLength, V3dist, bladePoint, num_real]
  ring

/-- **C09** Each increment is at least the radial distance travelled, so the path length is at least `r i - r 0`, and
it increases strictly wherever the radius does. -/
theorem pathLength_ge (n : ℕ) (r pc ps : ℕ → ℝ) (p : ℝ) (i : ℕ) :
    r i - r 0 ≤ (defineCurvature n r pc ps p).s i ∧
    (r i < r (i + 1) → (defineCurvature n r pc ps p).s i < (defineCurvature n r pc ps p).s (i + 1)) := by
  have inc : ∀ j, |r (j + 1) - r j| ≤ segLength r pc ps j := by
    intro j
    simp only [segLength, num_real]
    rw [← Real.sqrt_sq_eq_abs]
    apply Real.sqrt_le_sqrt
    nlinarith [sq_nonneg (pc (j + 1) - pc j), sq_nonneg (ps (j + 1) - ps j)]
  constructor
  · induction i with
    | zero => simp [defineCurvature, pathLength]
    | succ i ih =>
      simp only [defineCurvature, pathLength] at *
      have := le_trans (le_abs_self _) (inc i)
      linarith
  · intro h
    simp only [defineCurvature, pathLength]
    have := le_trans (le_abs_self _) (inc i)
    linarith

/-- **C09** The path length does not depend on the precone angle. -/
theorem pathLength_precone (n : ℕ) (r pc ps : ℕ → ℝ) (p q : ℝ) :
    (defineCurvature n r pc ps p).s = (defineCurvature n r pc ps q).s := rfl

/-- A 3-4-0 segment has length 5. -/
example : (defineCurvature 2 (fun i => 4 * (i : ℝ)) (fun i => 3 * (i : ℝ)) (fun _ => 0) 1).s 1 = 5 := by
  have h := (pathLength_increments 2 (fun i => 4 * (i : ℝ)) (fun i => 3 * (i : ℝ)) (fun _ => 0) 1)
  have h2 := h.2 0
  rw [h.1] at h2
  norm_num [V3dist, bladePoint] at h2
  rw [h2]
  rw [show (25:ℝ) = 5 ^ 2 by norm_num, Real.sqrt_sq (by norm_num)]

/-- The inflow at a station as documented (`docs/csystem.rst`, comments of `windComponents`): the sheared wind along the
wind axis, turned wind → yaw → hub → azimuth → blade, plus minus the rotation velocity `Ω × position`, turned
azimuth → blade; the height in the power law is the z coordinate of the position in the yaw frame. -/
noncomputable def inflowSpec (cone : ℝ) (blade : V3) (precone yaw tilt azimuth Uinf rpm hubHt shear : ℝ) : V3 :=
  let pos := fromTurnedFrame (V3.smul (-1) .ey) precone blade
  let height := (fromTurnedFrame .ey tilt (fromTurnedFrame .ex azimuth pos)).z
  let wind := V3.smul (Uinf * (1 + height / hubHt) ^ shear) .ex
  let windAz := toTurnedFrame .ex azimuth (toTurnedFrame .ey tilt (toTurnedFrame .ez yaw wind))
  let rot := V3.smul (-1) (V3.cross (V3.smul (rpm * (2 * Real.pi / 60)) .ex) pos)
  V3.add (toTurnedFrame (V3.smul (-1) .ey) cone windAz) (toTurnedFrame (V3.smul (-1) .ey) cone rot)

/-- **C10** The wind components are the first two components of the documented transformation chain. -/
theorem windComponents_eq_spec (n : ℕ) (r pc ps : ℕ → ℝ) (precone yaw tilt azimuth Uinf rpm hubHt shear : ℝ) (i : ℕ) :
    let V := inflowSpec ((defineCurvature n r pc ps precone).cone i) (bladePoint r pc ps i)
      precone yaw tilt azimuth Uinf rpm hubHt shear
    windComponents n r pc ps precone yaw tilt azimuth Uinf rpm hubHt shear i = (V.x, V.y) := by
  intro V
  have hh : heightFromHub ((defineCurvature n r pc ps precone).x_az i) ((defineCurvature n r pc ps precone).y_az i)
      ((defineCurvature n r pc ps precone).z_az i) tilt azimuth
      = (fromTurnedFrame .ey tilt (fromTurnedFrame .ex azimuth
          (fromTurnedFrame (V3.smul (-1) .ey) precone (bladePoint r pc ps i)))).z := by
    simp only [bladePoint, defineCurvature, xAz, yAz, zAz, heightFromHub]
    conv_unfold
    ring
  simp only [V, windComponents, inflowSpec, shearedWind, hh]
  generalize (defineCurvature n r pc ps precone).cone i = cone
  generalize (fromTurnedFrame .ey tilt (fromTurnedFrame .ex azimuth
          (fromTurnedFrame (V3.smul (-1) .ey) precone (bladePoint r pc ps i)))).z = height
  simp only [bladePoint, defineCurvature, yAz, zAz]
  conv_unfold
  generalize (1 + height / hubHt) ^ shear = w
  push_cast
  rw [Prod.mk.injEq]
  constructor <;> ring

/-- **C10** The same statement with the `DirectionVector` methods (angles in degrees), as in the comments of the code. -/
theorem windComponents_eq_directionVector (n : ℕ) (r pc ps : ℕ → ℝ)
    (precone yaw tilt azimuth Uinf rpm hubHt shear : ℝ) (i : ℕ) (cone : ℝ)
    (hcone : (defineCurvature n r pc ps (rad precone)).cone i = rad cone) :
    let az := (DirVec.mk' (pc i) (ps i) (r i)).bladeToAzimuth precone
    let height := ((az.azimuthToHub azimuth).hubToYaw tilt).z
    let V := Uinf * (1 + height / hubHt) ^ shear
    let Vwind := ((((DirVec.mk' V 0 0).windToYaw yaw).yawToHub tilt).hubToAzimuth azimuth).azimuthToBlade cone
    let Vrot := ((DirVec.mk' (rpm * (2 * Real.pi / 60)) 0 0).cross az).neg.azimuthToBlade cone
    windComponents n r pc ps (rad precone) (rad yaw) (rad tilt) (rad azimuth) Uinf rpm hubHt shear i
      = (Vwind.x + Vrot.x, Vwind.y + Vrot.y) := by
  intro az height V Vwind Vrot
  rw [windComponents_eq_spec, hcone]
  have h1 : az.vec = fromTurnedFrame (V3.smul (-1) .ey) (rad precone) (bladePoint r pc ps i) :=
    conv_eq_doc .bladeToAzimuth _ _
  have h2 : ((az.azimuthToHub azimuth).hubToYaw tilt).vec
      = fromTurnedFrame .ey (rad tilt) (fromTurnedFrame .ex (rad azimuth) az.vec) :=
    (conv_eq_doc .hubToYaw _ _).trans (congrArg _ (conv_eq_doc .azimuthToHub _ _))
  have h3 : Vwind.vec = toTurnedFrame (V3.smul (-1) .ey) (rad cone) (toTurnedFrame .ex (rad azimuth)
      (toTurnedFrame .ey (rad tilt) (toTurnedFrame .ez (rad yaw) (⟨V, 0, 0⟩ : V3)))) :=
    (conv_eq_doc .azimuthToBlade _ _).trans (congrArg _ ((conv_eq_doc .hubToAzimuth _ _).trans
      (congrArg _ ((conv_eq_doc .yawToHub _ _).trans (congrArg _ (conv_eq_doc .windToYaw _ _))))))
  have h4 : Vrot.vec = toTurnedFrame (V3.smul (-1) .ey) (rad cone)
      ((DirVec.mk' (rpm * (2 * Real.pi / 60)) 0 0).cross az).neg.vec := conv_eq_doc .azimuthToBlade _ _
  have h5 : ((DirVec.mk' (rpm * (2 * Real.pi / 60)) 0 0).cross az).neg.vec
      = V3.smul (-1) (V3.cross (V3.smul (rpm * (2 * Real.pi / 60)) .ex) az.vec) := by
    conv_unfold
    simp
  have h6 : height = (fromTurnedFrame .ey (rad tilt) (fromTurnedFrame .ex (rad azimuth) az.vec)).z :=
    congrArg V3.z h2
  have e1 : (Vwind.x + Vrot.x, Vwind.y + Vrot.y) = ((V3.add Vwind.vec Vrot.vec).x, (V3.add Vwind.vec Vrot.vec).y) := rfl
  rw [e1, h3, h4, h5]
  simp only [inflowSpec, ← h1, ← h6]
  have e2 : V3.smul (Uinf * (1 + height / hubHt) ^ shear) .ex = (⟨V, 0, 0⟩ : V3) := by
    simp [V3.smul, V3.ex, V]
  rw [e2]

/-- Non-trivial instance of C10: straight blade, no angles, uniform wind 10 m/s, 30/π rpm (1 rad/s): Vx = 10, Vy = r. -/
example : windComponents 2 (fun i => 1 + (i : ℝ)) (fun _ => 0) (fun _ => 0) 0 0 0 0 10 (30 / Real.pi) 80 0 1 = (10, 2) := by
  have hc : (defineCurvature 2 (fun i => 1 + (i : ℝ)) (fun _ => 0) (fun _ => 0) 0).cone 1 = 0 :=
    cone_of_straight_blade 2 (by norm_num) _ _ _ _ ⟨by linarith [Real.pi_pos], Real.pi_pos.le⟩
      (by intro i _; push_cast; linarith) (by intros; rfl) 1 (by norm_num)
  have hpi := Real.pi_ne_zero
  simp only [windComponents, hc]
  simp [defineCurvature, xAz, yAz, zAz, shearedWind, heightFromHub, num_real, hpi]
  norm_num

/-- **C11** The wind components are linear in wind speed and rotor speed jointly. -/
theorem windComponents_linear (n : ℕ) (r pc ps : ℕ → ℝ) (precone yaw tilt azimuth hubHt shear : ℝ) (i : ℕ)
    (a b U1 U2 O1 O2 : ℝ) :
    let W := fun U O => windComponents n r pc ps precone yaw tilt azimuth U O hubHt shear i
    W (a * U1 + b * U2) (a * O1 + b * O2) = (a * (W U1 O1).1 + b * (W U2 O2).1, a * (W U1 O1).2 + b * (W U2 O2).2) := by
  simp only [windComponents, shearedWind, num_real]
  rw [Prod.mk.injEq]
  constructor <;> ring

/-- **C11** With zero shear exponent the hub height is irrelevant. -/
theorem windComponents_no_shear (n : ℕ) (r pc ps : ℕ → ℝ) (precone yaw tilt azimuth U O h1 h2 : ℝ) (i : ℕ) :
    windComponents n r pc ps precone yaw tilt azimuth U O h1 0 i
      = windComponents n r pc ps precone yaw tilt azimuth U O h2 0 i := by
  simp only [windComponents, shearedWind, num_real, Real.rpow_zero]

/-- **C11** A station at hub height sees exactly the hub-height wind: the shear exponent is irrelevant there. -/
theorem windComponents_at_hub_height (n : ℕ) (r pc ps : ℕ → ℝ) (precone yaw tilt azimuth U O hubHt shear : ℝ) (i : ℕ)
    (h : (fromTurnedFrame .ey tilt (fromTurnedFrame .ex azimuth
          (fromTurnedFrame (V3.smul (-1) .ey) precone (bladePoint r pc ps i)))).z = 0) :
    windComponents n r pc ps precone yaw tilt azimuth U O hubHt shear i
      = windComponents n r pc ps precone yaw tilt azimuth U O hubHt 0 i := by
  rw [windComponents_eq_spec, windComponents_eq_spec]
  simp only [inflowSpec, h, zero_div, add_zero, Real.one_rpow]

/-- A horizontal straight blade (azimuth 90°) without tilt is at hub height at every station. -/
example (i : ℕ) : (fromTurnedFrame .ey 0 (fromTurnedFrame .ex (Real.pi / 2)
    (fromTurnedFrame (V3.smul (-1) .ey) 0 (bladePoint (fun i => 1 + (i : ℝ)) (fun _ => 0) (fun _ => 0) i)))).z = 0 := by
  simp only [bladePoint]
  conv_unfold
  simp

/-- **C12** Without yaw, tilt and shear the inflow is the same at every azimuth. -/
theorem windComponents_azimuth_symmetric (n : ℕ) (r pc ps : ℕ → ℝ) (precone U O hubHt az1 az2 : ℝ) (i : ℕ) :
    windComponents n r pc ps precone 0 0 az1 U O hubHt 0 i = windComponents n r pc ps precone 0 0 az2 U O hubHt 0 i := by
  simp [windComponents, shearedWind, num_real]

/-- **C12** The inflow is periodic in azimuth with period one turn. -/
theorem windComponents_azimuth_periodic (n : ℕ) (r pc ps : ℕ → ℝ)
    (precone yaw tilt azimuth U O hubHt shear : ℝ) (i : ℕ) :
    windComponents n r pc ps precone yaw tilt (azimuth + 2 * Real.pi) U O hubHt shear i
      = windComponents n r pc ps precone yaw tilt azimuth U O hubHt shear i := by
  simp only [windComponents, shearedWind, heightFromHub, num_real, Real.sin_add_two_pi, Real.cos_add_two_pi]

/-- The symmetry needs the hypotheses: with shear the inflow differs between the upper and the lower position. -/
theorem windComponents_shear_breaks_symmetry :
    windComponents 2 (fun i => 1 + (i : ℝ)) (fun _ => 0) (fun _ => 0) 0 0 0 0 10 0 80 1 1
      ≠ windComponents 2 (fun i => 1 + (i : ℝ)) (fun _ => 0) (fun _ => 0) 0 0 0 Real.pi 10 0 80 1 1 := by
  have hc : (defineCurvature 2 (fun i => 1 + (i : ℝ)) (fun _ => 0) (fun _ => 0) 0).cone 1 = 0 :=
    cone_of_straight_blade 2 (by norm_num) _ _ _ _ ⟨by linarith [Real.pi_pos], Real.pi_pos.le⟩
      (by intro i _; push_cast; linarith) (by intros; rfl) 1 (by norm_num)
  simp only [windComponents, hc]
  simp [defineCurvature, xAz, yAz, zAz, shearedWind, heightFromHub, num_real]
  norm_num

end Verif
