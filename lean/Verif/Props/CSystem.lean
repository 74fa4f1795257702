import Verif.Model.CSystem
import Verif.Spec.Vec
import Mathlib.Tactic.Ring
import Mathlib.Tactic.Linarith
import Mathlib.Tactic.LinearCombination
import Mathlib.Tactic.FieldSimp
import Mathlib.Tactic.NormNum

/-!
# Properties of the frame conversions (C01, C02, C03, C05, C06, C75)

Over exact reals; the vector of components of a model vector is compared with the specification `Verif.Spec`.
-/

namespace Verif
open Spec

/-- The components of a model vector. -/
def DirVec.vec (v : DirVec ℝ) : V3 := ⟨v.x, v.y, v.z⟩

/-- The conversion in the opposite direction, by name. -/
def Conv.back : Conv → Conv
  | .windToInertial => .inertialToWind
  | .inertialToWind => .windToInertial
  | .yawToWind => .windToYaw
  | .windToYaw => .yawToWind
  | .hubToYaw => .yawToHub
  | .yawToHub => .hubToYaw
  | .hubToAzimuth => .azimuthToHub
  | .azimuthToHub => .hubToAzimuth
  | .azimuthToBlade => .bladeToAzimuth
  | .bladeToAzimuth => .azimuthToBlade
  | .airfoilToBlade => .bladeToAirfoil
  | .bladeToAirfoil => .airfoilToBlade
  | .airfoilToProfile => .profileToAirfoil
  | .profileToAirfoil => .airfoilToProfile

/-- What `docs/csystem.rst` says about each conversion of a vector `v` by an angle of `t` radians: the target frame is
turned about `+z` (wind angle, yaw), `+y` (tilt), `+x` (azimuth), `-y` (precone) or `-z` (twist); conversions towards
the tower base go back. The profile frame swaps the first two axes. -/
noncomputable def Conv.doc : Conv → ℝ → V3 → V3
  | .inertialToWind, t, v => toTurnedFrame .ez t v
  | .windToInertial, t, v => fromTurnedFrame .ez t v
  | .windToYaw, t, v => toTurnedFrame .ez t v
  | .yawToWind, t, v => fromTurnedFrame .ez t v
  | .yawToHub, t, v => toTurnedFrame .ey t v
  | .hubToYaw, t, v => fromTurnedFrame .ey t v
  | .hubToAzimuth, t, v => toTurnedFrame .ex t v
  | .azimuthToHub, t, v => fromTurnedFrame .ex t v
  | .azimuthToBlade, t, v => toTurnedFrame (V3.smul (-1) .ey) t v
  | .bladeToAzimuth, t, v => fromTurnedFrame (V3.smul (-1) .ey) t v
  | .bladeToAirfoil, t, v => toTurnedFrame (V3.smul (-1) .ez) t v
  | .airfoilToBlade, t, v => fromTurnedFrame (V3.smul (-1) .ez) t v
  | .airfoilToProfile, _, v => ⟨v.y, v.x, v.z⟩
  | .profileToAirfoil, _, v => ⟨v.y, v.x, v.z⟩

/-- Unfold every conversion to real formulas. -/
macro "conv_unfold" : tactic => `(tactic|
  simp only [Conv.call, Conv.back, Conv.doc, DirVec.vec, DirVec.windToInertial, DirVec.inertialToWind,
    DirVec.yawToWind, DirVec.windToYaw, DirVec.hubToYaw, DirVec.yawToHub, DirVec.hubToAzimuth, DirVec.azimuthToHub,
    DirVec.azimuthToBlade, DirVec.bladeToAzimuth, DirVec.airfoilToBlade, DirVec.bladeToAirfoil,
    DirVec.airfoilToProfile, DirVec.profileToAirfoil, rotXY, rotZX, rotYZ, rotateAboutZ,
    toTurnedFrame, fromTurnedFrame, Spec.rotate, V3.add, V3.smul, V3.dot, V3.cross, V3.ex, V3.ey, V3.ez,
    DirVec.cross, DirVec.mk', DirVec.add, DirVec.mul, DirVec.neg, DirVec.sub, DirVec.truediv,
    num_real, if_true, if_false, Bool.false_eq_true, mul_one, mul_neg, neg_mul, Real.cos_neg, Real.sin_neg])

/-- **C75** Every conversion is the rotation of the frame documented in `docs/csystem.rst` (angle in degrees). -/
theorem conv_eq_doc (c : Conv) (v : DirVec ℝ) (t : ℝ) :
    (c.call v t).vec = c.doc (t * (Real.pi / 180)) v.vec := by
  cases c <;> conv_unfold <;> ext <;> simp <;> ring

/-- Non-trivial instance: a positive yaw of 90° turns the yaw frame so that wind along +x is seen along -y. -/
example : ((DirVec.mk' (1:ℝ) 0 0).windToYaw 90).vec = ⟨0, -1, 0⟩ := by
  have h : (90:ℝ) * (Real.pi / 180) = Real.pi / 2 := by ring
  have := conv_eq_doc .windToYaw (DirVec.mk' (1:ℝ) 0 0) 90
  simp only [Conv.call] at this
  rw [this, h]
  conv_unfold
  ext <;> simp

/-- **C01** Converting and converting back with the same angle returns the components. -/
theorem conv_roundtrip (c : Conv) (v : DirVec ℝ) (t : ℝ) :
    (c.back.call (c.call v t) t).vec = v.vec := by
  have h := Real.sin_sq_add_cos_sq (t * (Real.pi / 180))
  cases c <;> conv_unfold <;> ext <;> simp only [] <;> first
    | rfl
    | linear_combination (v.x) * h
    | linear_combination (v.y) * h
    | linear_combination (v.z) * h

example : ((DirVec.mk' (1:ℝ) 2 3).hubToAzimuth 37 |>.azimuthToHub 37).vec = ⟨1, 2, 3⟩ :=
  conv_roundtrip .hubToAzimuth (DirVec.mk' 1 2 3) 37

/-- **C02** Every conversion preserves dot products (hence lengths and angles). -/
theorem conv_dot (c : Conv) (v w : DirVec ℝ) (t : ℝ) :
    (c.call v t).vec.dot (c.call w t).vec = v.vec.dot w.vec := by
  have h := Real.sin_sq_add_cos_sq (t * (Real.pi / 180))
  cases c <;> conv_unfold <;> first
    | ring1
    | linear_combination (v.x * w.x + v.y * w.y) * h
    | linear_combination (v.z * w.z + v.x * w.x) * h
    | linear_combination (v.y * w.y + v.z * w.z) * h

/-- The conversions that are rotations (all but the two profile conversions). -/
def Conv.isRotation : Conv → Prop
  | .airfoilToProfile | .profileToAirfoil => False
  | _ => True

/-- **C02** Every rotational conversion commutes with the cross product: handedness is preserved. -/
theorem conv_cross (c : Conv) (hc : c.isRotation) (v w : DirVec ℝ) (t : ℝ) :
    ((c.call v t).cross (c.call w t)).vec = (c.call (v.cross w) t).vec := by
  have h := Real.sin_sq_add_cos_sq (t * (Real.pi / 180))
  cases c <;> first | exact hc.elim | skip
  all_goals
    conv_unfold
    ext <;> simp only [] <;> first
      | ring1
      | linear_combination (v.x * w.y - v.y * w.x) * h
      | linear_combination (v.y * w.z - v.z * w.y) * h
      | linear_combination (v.z * w.x - v.x * w.z) * h

/-- **C02** (disagreement with `docs/csystem.rst`, "all coordinate systems obey the right-hand rule"): the profile
conversions reverse handedness. -/
theorem profile_reverses_cross (v w : DirVec ℝ) :
    (v.airfoilToProfile.cross w.airfoilToProfile).vec = V3.smul (-1) (v.cross w).airfoilToProfile.vec := by
  conv_unfold
  ext <;> simp

/-- Concrete instance: the images of the first two axis vectors span the opposite of the image of the third. -/
example : ((DirVec.mk' (1:ℝ) 0 0).airfoilToProfile.cross (DirVec.mk' (0:ℝ) 1 0).airfoilToProfile).vec
    ≠ (DirVec.mk' (0:ℝ) 0 1).airfoilToProfile.vec := by
  conv_unfold
  simp
  norm_num

/-- **C02** Every conversion is linear. -/
theorem conv_linear (c : Conv) (v w : DirVec ℝ) (a b t : ℝ) :
    (c.call ((v.mul (.scal a)).add (.vec (w.mul (.scal b)))) t).vec
      = V3.add (V3.smul a (c.call v t).vec) (V3.smul b (c.call w t).vec) := by
  cases c <;> conv_unfold <;> ext <;> simp only [] <;> ring

/-- **C03** Successive conversions of the same kind add their angles. -/
theorem conv_add (c : Conv) (hc : c.isRotation) (v : DirVec ℝ) (a b : ℝ) :
    (c.call (c.call v a) b).vec = (c.call v (a + b)).vec := by
  cases c <;> first | exact hc.elim | skip
  all_goals
    conv_unfold
    simp only [add_mul, Real.cos_add, Real.sin_add]
    ext <;> simp only [] <;> ring

/-- **C03** Angle zero is the identity. -/
theorem conv_zero (c : Conv) (hc : c.isRotation) (v : DirVec ℝ) : (c.call v 0).vec = v.vec := by
  cases c <;> first | exact hc.elim | skip
  all_goals
    conv_unfold
    simp

/-- **C03** The conversions are 360° periodic. -/
theorem conv_periodic (c : Conv) (v : DirVec ℝ) (t : ℝ) : (c.call v (t + 360)).vec = (c.call v t).vec := by
  have h : (t + 360) * (Real.pi / 180) = t * (Real.pi / 180) + 2 * Real.pi := by ring
  cases c <;> conv_unfold <;> simp only [h, Real.cos_add_two_pi, Real.sin_add_two_pi]

/-- Non-trivial instance of C03: two turns of 30° and 60° of a tilted vector. -/
example : (((DirVec.mk' (1:ℝ) 2 3).yawToHub 30).yawToHub 60).vec = ((DirVec.mk' (1:ℝ) 2 3).yawToHub 90).vec := by
  have := conv_add .yawToHub trivial (DirVec.mk' (1:ℝ) 2 3) 30 60
  norm_num [Conv.call] at this
  exact this

end Verif
