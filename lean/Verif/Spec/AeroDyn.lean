import Verif.Model.AeroDyn

/-!
# Specification of AeroDyn files

A text is a list of lines, a line a list of words.  Nothing here refers to the reader or the writer of the model; `isWs` says
which characters are white space and `Lex` what the words mean.
-/

namespace Verif

variable {α : Type}

/-- The lines of a text -/
def linesOf (s : List Char) : List (List Char) := s.splitOn '\n'

/-- The words of a line -/
def wordsOf (l : List Char) : List (List Char) := (l.splitOnP isWs).filter (fun w => !w.isEmpty)

/-- The end mark of a table -/
def Marks (l : List Char) : Prop := ['E', 'O', 'T'] <:+: l

/-- The line starts with the number `x`. -/
def StartsWith (lex : Lex α) (l : List Char) (x : α) : Prop := ∃ w ws, wordsOf l = w :: ws ∧ lex.toFloat w = .ok x

/-- A line with the row `q`: numbers only, the first four are the row. -/
def IsRow (lex : Lex α) (l : List Char) (q : AfRow α) : Prop :=
  ¬ Marks l ∧ ∃ xs, (wordsOf l).map lex.toFloat = (q.alpha :: q.cl :: q.cd :: q.cm :: xs).map Except.ok

/-- The Reynolds number (in millions) and the rows of a table -/
structure AfTable (α : Type) where
  millions : α
  rows : List (AfRow α)

/-- The lines of a table: Reynolds number, eight parameters, rows, end mark. -/
def IsTable (lex : Lex α) (ls : List (List Char)) (t : AfTable α) : Prop :=
  ∃ l0 ps rs e, ls = l0 :: (ps ++ (rs ++ [e])) ∧ StartsWith lex l0 t.millions ∧ ps.length = 8 ∧
    (∀ p ∈ ps, ∃ x, StartsWith lex p x) ∧ List.Forall₂ (IsRow lex) rs t.rows ∧ Marks e

/-- A well-formed file with the given tables: three lines of header, the number of tables, the tables.  Anything may follow. -/
def WellFormed (lex : Lex α) (s : List Char) (tables : List (AfTable α)) : Prop :=
  ∃ h1 h2 h3 c w ws blocks rest, linesOf s = h1 :: h2 :: h3 :: c :: (blocks.flatten ++ rest) ∧
    wordsOf c = w :: ws ∧ lex.toInt w = .ok (tables.length : ℤ) ∧ List.Forall₂ (IsTable lex) blocks tables

/-- The polar of a table -/
noncomputable def AfTable.polar (t : AfTable ℝ) : Polar ℝ where
  Re := t.millions * 1000000
  alpha := t.rows.map fun q => q.alpha
  cl := t.rows.map fun q => q.cl
  cd := t.rows.map fun q => q.cd
  cm := t.rows.map fun q => q.cm

/-! ## Numbers in decimal notation -/

/-- A word of digits -/
def AllDigits (w : List Char) : Bool := w.all Char.isDigit

/-- What the format `f` and its reader have to satisfy: a number is a word without the letter `E`; reading it gives `q x`, the number
rounded to the digits written. -/
structure FixedFormat (lex : Lex ℝ) (fmt : ℝ → List Char) (q : ℝ → ℝ) : Prop where
  ne : ∀ x, fmt x ≠ []
  word : ∀ x, ∀ c ∈ fmt x, isWs c = false
  noE : ∀ x, 'E' ∉ fmt x
  back : ∀ x, lex.toFloat (fmt x) = .ok (q x)
  int : ∀ n : ℕ, lex.toInt (Nat.toDigits 10 n) = .ok (n : ℤ)

/-- An unsigned decimal number: digits, or digits, a point and digits -/
noncomputable def readUnsigned (w : List Char) : Except PyErr ℝ :=
  match w.splitOn '.' with
  | [a] => if AllDigits a ∧ a ≠ [] then .ok (Nat.ofDigitChars 10 a 0 : ℝ) else .error .valueError
  | [a, b] =>
    if AllDigits a ∧ AllDigits b ∧ a ++ b ≠ [] then .ok ((Nat.ofDigitChars 10 (a ++ b) 0 : ℝ) / 10 ^ b.length)
    else .error .valueError
  | _ => .error .valueError

/-- Decimal notation with an optional minus sign -/
noncomputable def decimalLex : Lex ℝ where
  toInt w := if AllDigits w ∧ w ≠ [] then .ok (Nat.ofDigitChars 10 w 0 : ℤ) else .error .valueError
  toFloat w :=
    match w with
    | '-' :: u => (readUnsigned u).map fun x => -x
    | u => readUnsigned u

/-- The number of millionths nearest to the absolute value -/
noncomputable def millionths (x : ℝ) : ℕ := ⌊|x| * 10 ^ 6 + 1 / 2⌋₊

/-- The six decimals -/
def sixDigits (n : ℕ) : List Char :=
  List.replicate (6 - (Nat.toDigits 10 n).length) '0' ++ Nat.toDigits 10 n

/-- Fixed-point notation with six decimals, the format `f` -/
noncomputable def fixed6 (x : ℝ) : List Char :=
  (if x < 0 then ['-'] else []) ++ (Nat.toDigits 10 (millionths x / 10 ^ 6) ++ '.' :: sixDigits (millionths x % 10 ^ 6))

/-- Rounding to six decimals -/
noncomputable def round6 (x : ℝ) : ℝ := if x < 0 then -(millionths x / 10 ^ 6) else millionths x / 10 ^ 6

/-- A polar with its numbers rounded as in a file -/
noncomputable def Polar.rounded (q : ℝ → ℝ) (p : Polar ℝ) : Polar ℝ where
  Re := q (p.Re / 1000000) * 1000000
  alpha := p.alpha.map q
  cl := p.cl.map q
  cd := p.cd.map q
  cm := p.cm.map q

/-- The text with the given lines -/
def withLines (ls : List (List Char)) : List Char := ['\n'].intercalate ls

end Verif
