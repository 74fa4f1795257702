import Verif.Props.AeroDynWrite
import Verif.Props.AfSearch
import Verif.Props.StallParam

/-!
# Unusable input is refused (C95), the text of AeroDyn files (C96)
-/

namespace Verif

section generic
variable {α : Type} [Num α]

theorem npInterps_mismatch (xs xp fp : List α) (h : fp.length ≠ xp.length) : npInterps xs xp fp = .error .valueError := by
  unfold npInterps
  rw [if_neg (fun e => h e.symm)]

theorem npInterps_empty (xs fp : List α) : npInterps xs [] fp = .error .valueError := by
  unfold npInterps
  split <;> rfl

theorem npInterps_error {xs xp fp : List α} {e : PyErr} (h : npInterps xs xp fp = .error e) : e = .valueError := by
  unfold npInterps at h
  split at h
  · split at h
    · exact (Except.error.inj h).symm
    · cases h
  · exact (Except.error.inj h).symm

theorem npInterps_never_error {xs xp fp : List α} : npInterps xs xp fp = .error .valueError ∨ ∃ ys, npInterps xs xp fp = .ok ys := by
  cases h : npInterps xs xp fp with
  | error e => left; rw [npInterps_error h]
  | ok ys => exact .inr ⟨ys, rfl⟩

/-- **C95** Blending with a polar without rows, or with one whose columns have another length than its angles, raises `ValueError`. -/
theorem blend_refused (p o : Polar α) (w : α)
    (h : p.alpha = [] ∨ o.alpha = [] ∨ p.cl.length ≠ p.alpha.length ∨ o.cl.length ≠ o.alpha.length ∨ p.cd.length ≠ p.alpha.length ∨
      o.cd.length ≠ o.alpha.length ∨ p.cm.length ≠ p.alpha.length ∨ o.cm.length ≠ o.alpha.length) :
    p.blend o w = .error .valueError := by
  unfold Polar.blend
  simp only [bind, Except.bind, pure, Except.pure]
  cases hp : p.alpha with
  | nil => rfl
  | cons a as =>
    cases ho : o.alpha with
    | nil => rfl
    | cons b bs =>
      rw [hp, ho] at h
      simp only [npMin, npMax]
      generalize List.filter _ _ = xs
      have key : ∀ (xp fp : List α), fp.length ≠ xp.length → npInterps xs xp fp = .error .valueError := fun xp fp => npInterps_mismatch xs xp fp
      rcases npInterps_never_error (xs := xs) (xp := a :: as) (fp := p.cl) with h1 | ⟨y1, h1⟩
      · rw [h1]
      rcases npInterps_never_error (xs := xs) (xp := b :: bs) (fp := o.cl) with h2 | ⟨y2, h2⟩
      · rw [h1, h2]
      rcases npInterps_never_error (xs := xs) (xp := a :: as) (fp := p.cd) with h3 | ⟨y3, h3⟩
      · rw [h1, h2, h3]
      rcases npInterps_never_error (xs := xs) (xp := b :: bs) (fp := o.cd) with h4 | ⟨y4, h4⟩
      · rw [h1, h2, h3, h4]
      rcases npInterps_never_error (xs := xs) (xp := a :: as) (fp := p.cm) with h5 | ⟨y5, h5⟩
      · rw [h1, h2, h3, h4, h5]
      rcases npInterps_never_error (xs := xs) (xp := b :: bs) (fp := o.cm) with h6 | ⟨y6, h6⟩
      · rw [h1, h2, h3, h4, h5, h6]
      exfalso
      rcases h with h | h | h | h | h | h | h | h
      · cases h
      · cases h
      · rw [key _ _ h] at h1; cases h1
      · rw [key _ _ h] at h2; cases h2
      · rw [key _ _ h] at h3; cases h3
      · rw [key _ _ h] at h4; cases h4
      · rw [key _ _ h] at h5; cases h5
      · rw [key _ _ h] at h6; cases h6

/-- Both cases of `blend_refused`: no rows on the right; a moment column that is too short on the left. -/
example (w : ℝ) : (⟨1, [0], [0], [1], [0]⟩ : Polar ℝ).blend ⟨1, [], [], [], []⟩ w = .error .valueError ∧
    (⟨1, [0, 1], [0, 1], [1, 1], [0]⟩ : Polar ℝ).blend ⟨1, [0, 1], [0, 1], [1, 1], [0, 0]⟩ w = .error .valueError :=
  ⟨blend_refused _ _ _ (by simp), blend_refused _ _ _ (by simp)⟩

/-- **C95** Extrapolating a polar without rows raises `ValueError`. -/
theorem extrapolate_refused (p : Polar α) (cdmax : α) (AR : Option α) (cdmin : α) (n : ℕ) (hc : ¬ cdmin < 0) (h : p.cd = []) :
    p.extrapolate cdmax AR cdmin n = .error .valueError := by
  unfold Polar.extrapolate
  rw [h]
  simp only [hc, if_false]
  rfl

/-- **C95** An airfoil needs a polar: `IndexError` otherwise. -/
theorem airfoil_refused : (AfSet.build [] : Except PyErr (AfSet α)) = .error .indexError ∧
    (∀ Re, (⟨[]⟩ : AfSet α).getPolar Re = .error .indexError) ∧ (⟨[]⟩ : AfSet α).interpToCommonAlpha none = .error .indexError :=
  ⟨rfl, fun _ => rfl, rfl⟩

/-- **C95** A polar without rows, or with columns of another length, cannot be put on a common grid: `ValueError`. -/
theorem common_grid_refused (p : Polar α) (ps : List (Polar α)) (grid : Option (List α))
    (h : p.alpha = [] ∨ p.cl.length ≠ p.alpha.length ∨ p.cd.length ≠ p.alpha.length ∨ p.cm.length ≠ p.alpha.length) :
    (⟨p :: ps⟩ : AfSet α).interpToCommonAlpha grid = .error .valueError := by
  have key : ∀ g, p.onGrid g = .error .valueError := by
    intro g
    unfold Polar.onGrid
    simp only [bind, Except.bind]
    rcases h with h | h | h | h
    · rw [h, npInterps_empty]
    · rw [npInterps_mismatch _ _ _ h]
    · rw [npInterps_mismatch g _ p.cd h]
      rcases npInterps_never_error (xs := g) (xp := p.alpha) (fp := p.cl) with h1 | ⟨y1, h1⟩ <;> rw [h1]
    · rw [npInterps_mismatch g _ p.cm h]
      rcases npInterps_never_error (xs := g) (xp := p.alpha) (fp := p.cl) with h1 | ⟨y1, h1⟩
      · rw [h1]
      rcases npInterps_never_error (xs := g) (xp := p.alpha) (fp := p.cd) with h2 | ⟨y2, h2⟩ <;> rw [h1, h2]
  unfold AfSet.interpToCommonAlpha
  simp only [List.mapM_cons, key, bind, Except.bind]

/-- **C95** The unsteady parameters of a table with fewer than two rows: `ValueError`. -/
theorem evalUnsteady_refused (alpha cl cd cm : List α) (h : cl.length < 2) : evalUnsteady alpha cl cd cm = .error .valueError := by
  unfold evalUnsteady
  have hn : ∀ x, nearest alpha x = .error .valueError ∨ ∃ i, nearest alpha x = .ok i := by
    intro x
    unfold nearest
    cases alpha with
    | nil => exact .inl rfl
    | cons a l => exact .inr ⟨_, rfl⟩
  have hz : ∀ lo hi, zeroLift alpha cl cd cm lo hi = .error .valueError := by
    intro lo hi
    unfold zeroLift maxGrad npGradient1
    rw [if_pos h]
    rfl
  simp only [bind, Except.bind]
  rcases hn (-Num.nat 30) with h1 | ⟨i, h1⟩
  · rw [h1]
  rcases hn (Num.nat 30) with h2 | ⟨j, h2⟩
  · rw [h1, h2]
  rw [h1, h2]
  simp only [hz]

/-- **C95** A rotor without stations: `IndexError`. -/
theorem rotor_refused (x : CCArgs α) (h : x.n = 0) : x.build = .error .indexError := by
  unfold CCArgs.build
  simp only [h, if_true]
  rfl

/-- **C95** An empty file and a file that announces no tables: `IndexError`; a row of a table with fewer than four numbers:
`ValueError`. -/
theorem file_refused (lex : Lex α) (fuel : ℕ) :
    readAeroDyn lex fuel [] = some (.error .indexError) ∧
    (∀ (s : List Char) (w : List Char) (s' : List Char) (k : ℤ), readWord (readline (readline (readline s).2).2).2 = .ok (w, s') →
      lex.toInt w = .ok k → k ≤ 0 → readAeroDyn lex fuel s = some (.error .indexError)) ∧
    (∀ (line : List Char) (xs : List α), (pySplit line).mapM lex.toFloat = .ok xs → xs.length < 4 → readRow lex line = .error .valueError) := by
  refine ⟨rfl, ?_, ?_⟩
  · intro s w s' k h1 h2 h3
    unfold readAeroDyn
    simp only [h1, h2, show k.toNat = 0 by omega]
    rfl
  · intro line xs h1 h2
    unfold readRow
    rw [h1]
    match xs, h2 with
    | [], _ => rfl
    | [_], _ => rfl
    | [_, _], _ => rfl
    | [_, _, _], _ => rfl

end generic

/-- The hypotheses of the theorems above are met: a table without rows, a drag column that is too short, a table of one row. -/
example : (⟨1, [], [], [], []⟩ : Polar ℝ).extrapolate 1 none 0 15 = .error .valueError ∧
    (⟨[⟨1, [0, 1], [0, 1], [1], [0, 0]⟩]⟩ : AfSet ℝ).interpToCommonAlpha none = .error .valueError ∧
    evalUnsteady [(0 : ℝ)] [1] [1] [0] = .error .valueError :=
  ⟨extrapolate_refused _ _ _ _ _ (lt_irrefl _) rfl, common_grid_refused _ _ _ (by simp), evalUnsteady_refused _ _ _ _ (by simp)⟩

/-- A file that announces no tables, and a row of three numbers -/
example : readAeroDyn decimalLex 7 "a\nb\nc\n0 tables\n".toList = some (.error .indexError) ∧
    readRow decimalLex "1 2 3".toList = .error .valueError := by
  refine ⟨(file_refused decimalLex 7).2.1 _ "0".toList [] 0 rfl ?_ le_rfl, ?_⟩
  · simp [decimalLex, AllDigits, Nat.ofDigitChars]
  · have e1 : decimalLex.toFloat ['1'] = .ok 1 := by read_decimal
    have e2 : decimalLex.toFloat ['2'] = .ok 2 := by read_decimal
    have e3 : decimalLex.toFloat ['3'] = .ok 3 := by read_decimal
    refine (file_refused decimalLex 7).2.2 _ [1, 2, 3] ?_ (by simp)
    rw [show pySplit "1 2 3".toList = [['1'], ['2'], ['3']] by decide]
    simp only [List.mapM_cons, List.mapM_nil, e1, e2, e3, bind, Except.bind, pure, Except.pure]

/-! ## The text of AeroDyn files -/

/-- The line consists of the value in a field of at least 10 characters, a tab, and the description in a field of at least 40. -/
def Says (line value : List Char) (label : String) : Prop :=
  ∃ a b : ℕ, value.length + a = max 10 value.length ∧ label.toList.length + b = max 40 label.toList.length ∧
    line = value ++ List.replicate a ' ' ++ '\t' :: (label.toList ++ List.replicate b ' ')

/-- The line consists of the values, each in a field of at least 10 characters, separated by tabs. -/
def RowSays (row : List Char) (vs : List (List Char)) : Prop :=
  ∃ a b c d : List Char, vs.map (fun v => v ++ List.replicate (10 - v.length) ' ') = [a, b, c, d] ∧
    row = a ++ '\t' :: (b ++ '\t' :: (c ++ '\t' :: d))

theorem says_labelled (x : List Char) (label : String) : Says (labelled x label) x label :=
  ⟨10 - x.length, 40 - label.toList.length, by omega, by omega, rfl⟩

/-- **C96** (partial) What is written for a polar: Reynolds number in millions, the eight parameters of `unsteadyparam` each with its
description, the rows, and the end mark.  Missing: the description of the seventh parameter says degrees, the value is in radians
(`aerodyn_text_false`). -/
theorem polar_text_partial (fit : PolyFit ℝ) (fmt : ℝ → List Char) (p : Polar ℝ) (ls : List (List Char)) (h : polarText fit fmt p = .ok ls) :
    ∃ u, p.unsteadyparam fit (-5) 5 = .ok u ∧ ∃ l0 l1 l2 l3 l4 l5 l6 l7 l8 rows,
      ls = [l0, l1, l2, l3, l4, l5, l6, l7, l8] ++ rows ++ ["EOT".toList] ∧
      Says l0 (fmt (p.Re / 10 ^ 6)) "Reynolds number in millions." ∧ Says l1 (fmt u.control) "Control setting" ∧
      Says l2 (fmt u.stallAngle) "Stall angle (deg)" ∧
      Says l3 (fmt u.alphaZeroCn) "Angle of attack for zero Cn for linear Cn curve (deg)" ∧
      Says l4 (fmt u.cnSlope) "Cn slope for zero lift for linear Cn curve (1/rad)" ∧
      Says l5 (fmt u.cnStallUpper) "Cn at stall value for positive angle of attack for linear Cn curve" ∧
      Says l6 (fmt u.cnStallLower) "Cn at stall value for negative angle of attack for linear Cn curve" ∧
      Says l7 (fmt u.alphaMinCd) "Angle of attack for minimum CD (deg)" ∧ Says l8 (fmt u.minCd) "Minimum CD value" ∧
      rows.length = min (min p.alpha.length p.cl.length) (min p.cd.length p.cm.length) ∧
      ∀ (i : ℕ) (a l d m : ℝ), p.alpha[i]? = some a → p.cl[i]? = some l → p.cd[i]? = some d → p.cm[i]? = some m →
        ∃ row, rows[i]? = some row ∧ RowSays row [fmt a, fmt l, fmt d, fmt m] := by
  rw [polarText] at h
  cases hu : p.unsteadyparam fit (-Num.nat 5) (Num.nat 5) with
  | error e => simp [hu, bind, Except.bind] at h
  | ok u =>
    simp only [hu, bind, Except.bind, pure, Except.pure, Except.ok.injEq] at h
    subst h
    refine ⟨u, by simp, _, _, _, _, _, _, _, _, _, p.rows.map (rowText fmt), rfl, ?_, says_labelled _ _,
      says_labelled _ _, says_labelled _ _, says_labelled _ _, says_labelled _ _, says_labelled _ _, says_labelled _ _, says_labelled _ _, ?_, ?_⟩
    · have e : p.Re / Num.nat (10 ^ 6) = p.Re / 10 ^ 6 := by simp only [num_real]; norm_num
      rw [← e]
      exact says_labelled _ _
    · simp [Polar.rows]
    · intro i a l d m ha hl hd hm
      have hr : p.rows[i]? = some ⟨a, l, d, m⟩ := by
        simp [Polar.rows, List.getElem?_zipWith, List.zip, ha, hl, hd, hm]
      exact ⟨rowText fmt ⟨a, l, d, m⟩, by simp [hr], _, _, _, _, rfl, rfl⟩

/-- **C96** (partial) The file starts with three fixed texts and the number of tables, and then holds the text of each polar of the
airfoil on the common angles, in their order.  Missing: see `polar_text_partial`; no line ends (`aerodyn_roundtrip_false`). -/
theorem aerodyn_text_partial (fit : PolyFit ℝ) (fmt : ℝ → List Char) (af : AfSet ℝ) (text : List Char)
    (h : af.writeAeroDyn fit fmt = .ok text) :
    ∃ a bodies blanks, af.interpToCommonAlpha none = .ok a ∧ List.Forall₂ (fun p b => polarText fit fmt p = .ok b) a.polars bodies ∧
      (∀ c ∈ blanks, c = ' ') ∧
      text = "AeroDyn airfoil file.Compatible with AeroDyn v13.0.Generated by airfoilprep.py".toList ++
        (Nat.toDigits 10 a.polars.length ++ blanks ++ "\t\tNumber of airfoil tables in this file   ".toList ++
          bodies.flatten.flatten) := by
  rw [AfSet.writeAeroDyn] at h
  cases hp : af.pieces fit fmt with
  | error e => simp [hp, bind, Except.bind] at h
  | ok ps =>
    simp only [hp, bind, Except.bind, pure, Except.pure, Except.ok.injEq] at h
    obtain ⟨a, bodies, h1, h2, h3⟩ := pieces_inv hp
    refine ⟨a, bodies, List.replicate (10 - (Nat.toDigits 10 a.polars.length).length) ' ', h1, h2,
      fun c hc => List.eq_of_mem_replicate hc, ?_⟩
    rw [← h, h3]
    have e1 : "AeroDyn airfoil file.Compatible with AeroDyn v13.0.Generated by airfoilprep.py".toList =
      "AeroDyn airfoil file.".toList ++ ("Compatible with AeroDyn v13.0.".toList ++ "Generated by airfoilprep.py".toList) := by decide
    have e2 : "\t\tNumber of airfoil tables in this file   ".toList =
      '\t' :: '\t' :: padRight 40 "Number of airfoil tables in this file".toList := by decide
    rw [e1, e2]
    simp only [List.flatten_cons, countLine, padRight, List.append_assoc, List.cons_append]

/-- The hypotheses of `aerodyn_text_partial` and of `polar_text_partial` hold for `sampleAirfoil`. -/
example (fit : PolyFit ℝ) : ∃ text, sampleAirfoil.writeAeroDyn fit fixed6 = .ok text := by
  obtain ⟨ps, hps⟩ := sampleAirfoil_pieces fit
  exact ⟨ps.flatten, by simp [AfSet.writeAeroDyn, hps, bind, Except.bind, pure, Except.pure]⟩

/-- **C96** The descriptions do not all apply: for a table whose drag is least at 4 degrees, the value beside "Angle of attack for
minimum CD (deg)" is that of another number than 4. -/
theorem aerodyn_text_false (fit : PolyFit ℝ) (hf : ∀ l, l ≠ [] → ∃ m b, fit l = .ok (m, b)) (fmt : ℝ → List Char) :
    ∃ ls line x, polarText fit fmt stallPolar = .ok ls ∧ ls[7]? = some line ∧
      Says line (fmt x) "Angle of attack for minimum CD (deg)" ∧ stallPolar.alpha[11]? = some 4 ∧
      (∃ d, FirstMin stallPolar.cd 11 d) ∧ x ≠ 4 := by
  obtain ⟨u, hu, h1, h2, h3⟩ := unsteadyparam_degrees_false fit hf
  have h : ∃ ls, polarText fit fmt stallPolar = .ok ls := by
    have hu' : stallPolar.unsteadyparam fit (-Num.nat 5) (Num.nat 5) = .ok u := by simpa [num_real] using hu
    rw [polarText, hu']
    exact ⟨_, rfl⟩
  obtain ⟨ls, h⟩ := h
  obtain ⟨u', hu', l0, l1, l2, l3, l4, l5, l6, l7, l8, rows, hls, -, -, -, -, -, -, -, h7, -⟩ := polar_text_partial fit fmt _ ls h
  rw [hu] at hu'
  cases hu'
  exact ⟨ls, l7, u.alphaMinCd, h, by rw [hls]; rfl, h7, h2, ⟨_, h1⟩, h3⟩

end Verif
