import Mathlib.Data.Real.Basic
import Mathlib.Analysis.SpecialFunctions.Trigonometric.Basic

/-!
# Specification: vectors of ℝ³ and rotations (independent of the model)
-/

namespace Verif.Spec

/-- A vector of ℝ³. -/
@[ext] structure V3 where
  x : ℝ
  y : ℝ
  z : ℝ

namespace V3
def dot (v w : V3) : ℝ := v.x * w.x + v.y * w.y + v.z * w.z
def cross (v w : V3) : V3 := ⟨v.y * w.z - v.z * w.y, v.z * w.x - v.x * w.z, v.x * w.y - v.y * w.x⟩
def add (v w : V3) : V3 := ⟨v.x + w.x, v.y + w.y, v.z + w.z⟩
def smul (a : ℝ) (v : V3) : V3 := ⟨a * v.x, a * v.y, a * v.z⟩
/-- unit vectors of the axes -/
def ex : V3 := ⟨1, 0, 0⟩
def ey : V3 := ⟨0, 1, 0⟩
def ez : V3 := ⟨0, 0, 1⟩
end V3

open V3

/-- Rodrigues' formula: the vector `v` rotated by the angle `t` (radians) about the unit axis `u`. -/
noncomputable def rotate (u : V3) (t : ℝ) (v : V3) : V3 :=
  ((smul (Real.cos t) v).add (smul (Real.sin t) (cross u v))).add (smul ((1 - Real.cos t) * dot u v) u)

/-- Components, in a frame obtained by turning the current frame by `t` radians about the unit axis `u`, of the vector
with components `v` in the current frame. -/
noncomputable def toTurnedFrame (u : V3) (t : ℝ) (v : V3) : V3 := rotate u (-t) v

/-- Components in the current frame of the vector with components `v` in the frame turned by `t` about `u`. -/
noncomputable def fromTurnedFrame (u : V3) (t : ℝ) (v : V3) : V3 := rotate u t v

end Verif.Spec
