import Verif.Model.AirfoilPrep

/-!
# Specification of polars

What a polar table means: a piecewise linear curve through its points.  Nothing here refers to the interpolation routine of the
model.
-/

namespace Verif

/-- `(x, y)` is a point of the polyline through `pts`. -/
def OnPolyline (pts : List (ℝ × ℝ)) (x y : ℝ) : Prop :=
  (x, y) ∈ pts ∨ ∃ (i : ℕ) (p q : ℝ × ℝ), pts[i]? = some p ∧ pts[i + 1]? = some q ∧ p.1 ≤ x ∧ x ≤ q.1 ∧
    (y - p.2) * (q.1 - p.1) = (q.2 - p.2) * (x - p.1)

/-- The coefficient columns of a polar. -/
inductive Col
  | cl | cd | cm
  deriving DecidableEq

/-- A column of a polar. -/
def Polar.col {α : Type} (p : Polar α) : Col → List α
  | .cl => p.cl
  | .cd => p.cd
  | .cm => p.cm

/-- A table that means something: at least one row, increasing angles, complete columns. -/
structure Polar.WF (p : Polar ℝ) : Prop where
  ne : p.alpha ≠ []
  inc : p.alpha.Pairwise (· < ·)
  len : ∀ c, (p.col c).length = p.alpha.length

/-- The value of a column at an angle: a point of its curve. -/
def Polar.At (p : Polar ℝ) (c : Col) (x y : ℝ) : Prop := OnPolyline (p.alpha.zip (p.col c)) x y

/-- The angle lies in the range of the table. -/
def Polar.Covers (p : Polar ℝ) (x : ℝ) : Prop := (∃ a ∈ p.alpha, a ≤ x) ∧ ∃ a ∈ p.alpha, x ≤ a

end Verif
