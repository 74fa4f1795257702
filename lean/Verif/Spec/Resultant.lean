import Verif.Spec.Vec
import Mathlib.Algebra.BigOperators.Group.Finset.Basic

/-!
# Specification: resultant force and moment of the loads on a blade (independent of the model)

Coordinate systems as documented in /repo/docs/csystem.rst: the azimuth frame is the hub frame turned by the azimuth about `+x`
(l. 211), the frame of a blade section is the azimuth frame turned by the cone angle about `-y` (l. 269); the blade moves in
the direction of the negative `y`-axis (l. 275).
-/

namespace Verif.Spec

open V3 Finset

/-- A blade with loads: a polygon of `m` segments through the points `q i`, given in the blade root frame, which is the azimuth
frame turned by `precone` about `-y`; at each point the local cone angle, the force per length normal to the section and the
force per length in the direction of rotation. -/
structure LoadedBlade where
  m : ℕ
  precone : ℝ
  q : ℕ → V3
  cone : ℕ → ℝ
  N : ℕ → ℝ
  T : ℕ → ℝ

namespace LoadedBlade

/-- Length of a segment -/
noncomputable def len (b : LoadedBlade) (i : ℕ) : ℝ :=
  Real.sqrt (((b.q (i + 1)).x - (b.q i).x) ^ 2 + ((b.q (i + 1)).y - (b.q i).y) ^ 2 + ((b.q (i + 1)).z - (b.q i).z) ^ 2)

/-- Integral along the blade of a quantity that varies linearly on each segment -/
noncomputable def int (b : LoadedBlade) (f : ℕ → ℝ) : ℝ := ∑ i ∈ range b.m, (f i + f (i + 1)) / 2 * b.len i

/-- The same for vectors -/
noncomputable def int3 (b : LoadedBlade) (f : ℕ → V3) : V3 :=
  ⟨b.int fun i => (f i).x, b.int fun i => (f i).y, b.int fun i => (f i).z⟩

/-- Position of a point in the azimuth frame -/
noncomputable def point (b : LoadedBlade) (i : ℕ) : V3 := fromTurnedFrame (smul (-1) ey) b.precone (b.q i)

/-- Force per length at a point in the azimuth frame: `N` along the `x`-axis of the section, `T` in the direction of rotation,
that is along its negative `y`-axis -/
noncomputable def force (b : LoadedBlade) (i : ℕ) : V3 := fromTurnedFrame (smul (-1) ey) (b.cone i) ⟨b.N i, -b.T i, 0⟩

/-- Resultant force of the blade at azimuth `psi` (radians), in the hub frame -/
noncomputable def hubForce (b : LoadedBlade) (psi : ℝ) : V3 := fromTurnedFrame ex psi (b.int3 b.force)

/-- Resultant moment about the hub centre of the blade at azimuth `psi` (radians), in the hub frame -/
noncomputable def hubMoment (b : LoadedBlade) (psi : ℝ) : V3 :=
  fromTurnedFrame ex psi (b.int3 fun i => cross (b.point i) (b.force i))

/-- Resultant moment of the blade about its root (the first point), in the azimuth frame.  The flapwise component is that about the
`y`-axis, which the blade root frame shares with the azimuth frame. -/
noncomputable def rootMoment (b : LoadedBlade) : V3 :=
  b.int3 fun i => cross (add (b.point i) (smul (-1) (b.point 0))) (b.force i)

end LoadedBlade
end Verif.Spec
