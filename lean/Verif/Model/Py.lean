import Verif.Num
import Mathlib.Data.List.Sort

/-!
# Python and numpy helpers used by the sources
-/

namespace Verif

/-- The exceptions the sources can raise. -/
inductive PyErr
  | valueError
  | indexError
  | unboundLocal
  | runtimeError
  | keyError
  | nameError
  | typeError
  | attributeError
  | osError
  | exception
  deriving DecidableEq, Repr

variable {α : Type} [Num α]

/-- `np.minimum(a, b)` (propagates NaN) -/
def npMinimum (a b : α) : α := if Num.isNaN a then a else if Num.isNaN b then b else if a ≤ b then a else b

/-- `np.maximum(a, b)` (propagates NaN) -/
def npMaximum (a b : α) : α := if Num.isNaN a then a else if Num.isNaN b then b else if b ≤ a then a else b

/-- Search of `np.interp` from the sample point `p`: the last segment whose left end is not to the right of `x`.
numpy uses bisection, which finds the same segment when the sample points are sorted. -/
def interpFrom (x : α) (p : α × α) : List (α × α) → α
  | [] => p.2
  | q :: rest => if x < q.1 then (q.2 - p.2) / (q.1 - p.1) * (x - p.1) + p.2 else interpFrom x q rest

/-- The bisection in the search of `np.interp` (numpy, `binary_search_with_guess` in compiled_base.c) -/
def npBisect (key : α) (xp : ℕ → α) (lo hi : ℕ) : ℕ :=
  if lo < hi then
    if xp (lo + (hi - lo) / 2) ≤ key then npBisect key xp (lo + (hi - lo) / 2 + 1) hi else npBisect key xp lo (lo + (hi - lo) / 2)
  else lo
termination_by hi - lo

/-- The linear search in short arrays (same function) -/
def npScan (key : α) (xp : ℕ → α) (n i : ℕ) : ℕ := if i < n ∧ xp i ≤ key then npScan key xp n (i + 1) else i
termination_by n - i

/-- The segment of the first query of `np.interp` among `n` sample points, `xp[0] <= key <= xp[n-1]` (same function with the
guess 0): the points next to the guess are tried first, then the first ten, then all. -/
def npSearch (key : α) (xp : ℕ → α) (n : ℕ) : ℕ :=
  if n ≤ 4 then npScan key xp n 1 - 1
  else if key < xp 1 then 0
  else if key < xp 2 then 1
  else if key < xp 3 then 2
  else npBisect key xp 3 (if 10 < n ∧ key < xp 9 then 9 else n) - 1

/-- `np.interp(x, xp, fp)` for sample points `(xp[i], fp[i])`, which need not be sorted; constant beyond the ends; `ValueError`
for no points. -/
def npInterp (x : α) (l : List (α × α)) : Except PyErr α :=
  let n := l.length
  let p := fun i => l[i]?.getD (0, 0)
  if n = 0 then .error .valueError
  else if (p (n - 1)).1 < x then .ok (p (n - 1)).2
  else if x < (p 0).1 then .ok (p 0).2
  else
    let j := npSearch x (fun i => (p i).1) n
    if j = n - 1 then .ok (p j).2
    else if (p j).1 == x then .ok (p j).2
    else .ok (((p (j + 1)).2 - (p j).2) / ((p (j + 1)).1 - (p j).1) * (x - (p j).1) + (p j).2)

/-- `np.interp(xs, xp, fp)` for an array of query points and sorted sample points. -/
def npInterps (xs xp fp : List α) : Except PyErr (List α) :=
  if xp.length = fp.length then
    match xp.zip fp with
    | [] => .error .valueError
    | p :: rest => .ok (xs.map fun x => if x < p.1 then p.2 else interpFrom x p rest)
  else .error .valueError

/-- The distinct elements of a sorted list. -/
def dedupAdj : List α → List α
  | [] => []
  | [a] => [a]
  | a :: b :: l => if a == b then dedupAdj (b :: l) else a :: dedupAdj (b :: l)

/-- `np.unique(l)`: the sorted distinct elements -/
def npUnique (l : List α) : List α := dedupAdj (l.insertionSort (fun a b => a ≤ b))

/-- `np.union1d(a, b)` -/
def npUnion (a b : List α) : List α := npUnique (a ++ b)

/-- `a.min()` -/
def npMin : List α → Except PyErr α
  | [] => .error .valueError
  | a :: l => .ok (l.foldl npMinimum a)

/-- `a.max()` -/
def npMax : List α → Except PyErr α
  | [] => .error .valueError
  | a :: l => .ok (l.foldl npMaximum a)

/-- `max(a)` of an iterable -/
def pyMax : List α → Except PyErr α
  | [] => .error .valueError
  | a :: l => .ok (l.foldl nmax a)

/-- `l[0]` -/
def pyFirst {β : Type} : List β → Except PyErr β
  | [] => .error .indexError
  | a :: _ => .ok a

/-- `l[-1]` -/
def pyLast {β : Type} (l : List β) : Except PyErr β :=
  match l.getLast? with
  | none => .error .indexError
  | some a => .ok a

/-- `np.ceil` -/
def nceil (x : α) : α := -Num.floor (-x)

/-- `np.tan` -/
def ntan (x : α) : α := Num.sin x / Num.cos x

/-- The first `n` elements of an array as a list. -/
def arr {β : Type} (n : ℕ) (f : ℕ → β) : List β := (List.range n).map f

/-- `np.linspace(a, b, n)`: the step is added up from `a`, the last point is set to `b` -/
def npLinspace (a b : α) (n : ℕ) : List α :=
  arr n fun i => if i + 1 = n ∧ 1 < n then b else Num.nat i * ((b - a) / Num.nat (n - 1)) + a

/-- `np.diag(v)` and friends: a matrix with its shape. -/
structure Mat (α : Type) where
  rows : ℕ
  cols : ℕ
  get : ℕ → ℕ → α

/-- `np.diag(v)` for a vector of length `n` -/
def matDiag (n : ℕ) (v : ℕ → α) : Mat α := ⟨n, n, fun i j => if i = j then v i else 0⟩

/-- `v.reshape(n, 1)` -/
def matCol (n : ℕ) (v : ℕ → α) : Mat α := ⟨n, 1, fun i _ => v i⟩

/-- entry `[i, j]` of `np.eye` -/
def kron (i j : ℕ) : α := if i = j then 1 else 0

end Verif
