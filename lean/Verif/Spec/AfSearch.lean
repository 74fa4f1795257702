import Mathlib.Data.Real.Basic
import Mathlib.Algebra.Order.Group.Abs
import Mathlib.Analysis.SpecialFunctions.Trigonometric.Basic

/-!
# Specification of table searches

Statements about positions in a table that do not refer to the search routines of the model.
-/

namespace Verif

/-- Row `k` carries the value `b`, the largest of the table, and is the first row that does. -/
def FirstMax (l : List ℝ) (k : ℕ) (b : ℝ) : Prop :=
  l[k]? = some b ∧ (∀ (j : ℕ) (x : ℝ), l[j]? = some x → x ≤ b) ∧ ∀ (j : ℕ) (x : ℝ), j < k → l[j]? = some x → x < b

/-- Row `k` carries the value `b`, the one closest to `x`, and is the first such row. -/
def NearestRow (l : List ℝ) (x : ℝ) (k : ℕ) (b : ℝ) : Prop :=
  l[k]? = some b ∧ (∀ (j : ℕ) (c : ℝ), l[j]? = some c → |b - x| ≤ |c - x|) ∧
    ∀ (j : ℕ) (c : ℝ), j < k → l[j]? = some c → |b - x| < |c - x|

/-- The `k`-th angle (radians) of a search from -20 to 40 degrees in steps of 0.3 degrees. -/
noncomputable def sweepAngle (k : ℕ) : ℝ := (-20 + 3 * k / 10) * (Real.pi / 180)

/-- Deviation of row `j` from the straight line through rows `lo` and `hi`: signed and scaled, or absolute for `m = 0`. -/
noncomputable def chordDev (X Y : ℕ → ℝ) (lo hi : ℕ) (m : ℝ) (j : ℕ) : ℝ :=
  let d := Y j - (Y lo + (Y hi - Y lo) / (X hi - X lo) * (X j - X lo))
  if m = 0 then |d| else m * d

/-- Row `i` of `lo … hi - 1` is the first one with the largest positive deviation from the line through rows `lo` and `hi`; it is
row `lo` if there is no positive deviation. -/
def BreakRow (X Y : ℕ → ℝ) (lo hi : ℕ) (m : ℝ) (i : ℕ) : Prop :=
  (i = lo ∨ (lo ≤ i ∧ i < hi ∧ 0 < chordDev X Y lo hi m i)) ∧
    (∀ j : ℕ, lo ≤ j → j < hi → chordDev X Y lo hi m j ≤ max 0 (chordDev X Y lo hi m i)) ∧
    ∀ j : ℕ, lo ≤ j → j < i → chordDev X Y lo hi m j < chordDev X Y lo hi m i

/-- Row `i` is a strict local minimum of the rows `lo … hi - 1`. -/
def LocalMin (Y : ℕ → ℝ) (lo hi i : ℕ) : Prop :=
  lo ≤ i ∧ i < hi ∧ (i = lo ∨ Y i < Y (i - 1)) ∧ (i + 1 = hi ∨ Y i < Y (i + 1))

/-- The last strict local minimum of the rows `lo … hi - 1`; `lo` for an empty window. -/
def LastLocalMin (Y : ℕ → ℝ) (lo hi i : ℕ) : Prop :=
  (lo < hi ∧ LocalMin Y lo hi i ∧ ∀ j, LocalMin Y lo hi j → j ≤ i) ∨ (hi ≤ lo ∧ i = lo)

/-- Normal force coefficient of row `i` (angle in degrees). -/
noncomputable def normalRow (A L D : ℕ → ℝ) (i : ℕ) : ℝ :=
  L i * Real.cos (A i * (Real.pi / 180)) + D i * Real.sin (A i * (Real.pi / 180))

/-- Slope of the samples `F` over `X` at row `i` of the rows `lo ≤ i < hi`: the difference quotient at the two ends, elsewhere the
slope at `X i` of the parabola through the row and its neighbours. -/
def RowSlope (X F : ℕ → ℝ) (lo hi i : ℕ) (s : ℝ) : Prop :=
  (i = lo ∧ F (lo + 1) - F lo = s * (X (lo + 1) - X lo)) ∨
  (lo < i ∧ i + 1 = hi ∧ F i - F (i - 1) = s * (X i - X (i - 1))) ∨
  (lo < i ∧ i + 1 < hi ∧ ∃ c, F (i - 1) = F i + s * (X (i - 1) - X i) + c * (X (i - 1) - X i) ^ 2 ∧
    F (i + 1) = F i + s * (X (i + 1) - X i) + c * (X (i + 1) - X i) ^ 2)

/-- `m` is the largest slope over the rows `lo ≤ i < hi`. -/
def LargestSlope (X F : ℕ → ℝ) (lo hi : ℕ) (m : ℝ) : Prop :=
  (∃ i, lo ≤ i ∧ i < hi ∧ RowSlope X F lo hi i m) ∧ ∀ i, lo ≤ i → i < hi → ∃ s, RowSlope X F lo hi i s ∧ s ≤ m

end Verif
