import Verif.Props.AeroDyn

/-!
# Writing AeroDyn files and reading them back (C67)
-/

namespace Verif

/-! ## Words of the lines written -/

theorem wordsOf_ws {c : Char} (h : isWs c = true) (l : List Char) : wordsOf (c :: l) = wordsOf l := by
  rw [wordsOf, List.splitOnP_cons_eq_if_modifyHead, if_pos h]
  simp [wordsOf]

theorem wordsOf_blanks (k : ℕ) {c : Char} (h : isWs c = true) (l : List Char) :
    wordsOf (List.replicate k c ++ l) = wordsOf l := by
  induction k with
  | zero => rfl
  | succ k ih => rw [List.replicate_succ, List.cons_append, wordsOf_ws h, ih]

theorem wordsOf_word {w : List Char} (hne : w ≠ []) (hw : ∀ c ∈ w, isWs c = false) {c : Char} (h : isWs c = true) (l : List Char) :
    wordsOf (w ++ c :: l) = w :: wordsOf l := by
  rw [wordsOf, List.splitOnP_append_cons_of_forall_mem hw c h]
  simp [wordsOf, hne]

theorem isWs_blank : isWs ' ' = true := by decide
theorem isWs_tab : isWs '\t' = true := by decide

theorem wordsOf_padded {w : List Char} (hne : w ≠ []) (hw : ∀ c ∈ w, isWs c = false) (k : ℕ) {c : Char} (h : isWs c = true)
    (l : List Char) : wordsOf (padRight k w ++ c :: l) = w :: wordsOf l := by
  rw [padRight]
  cases hk : k - w.length with
  | zero => rw [List.replicate_zero, List.append_nil, wordsOf_word hne hw h]
  | succ j =>
    rw [List.replicate_succ, List.append_assoc, List.cons_append, wordsOf_word hne hw isWs_blank,
      wordsOf_blanks _ isWs_blank, wordsOf_ws h]

theorem wordsOf_padded_end {w : List Char} (hne : w ≠ []) (hw : ∀ c ∈ w, isWs c = false) (k : ℕ) :
    wordsOf (padRight k w) = [w] := by
  have h := wordsOf_padded hne hw k isWs_newline []
  rw [wordsOf_newline, wordsOf_nil] at h
  exact h

theorem mem_padRight {c : Char} {k : ℕ} {w : List Char} (h : c ∈ padRight k w) : c ∈ w ∨ c = ' ' := by
  rw [padRight, List.mem_append] at h
  rcases h with h | h
  · exact Or.inl h
  · exact Or.inr (List.mem_replicate.1 h).2

theorem newline_labelled {x : List Char} {label : String} (hx : '\n' ∉ x) (hl : '\n' ∉ label.toList) :
    '\n' ∉ labelled x label := by
  intro h
  rw [labelled, List.mem_append, List.mem_cons] at h
  rcases h with h | h | h
  · rcases mem_padRight h with h | h
    · exact hx h
    · exact absurd h (by decide)
  · exact absurd h (by decide)
  · rcases mem_padRight h with h | h
    · exact hl h
    · exact absurd h (by decide)

theorem mem_rowText {c : Char} {fmt : ℝ → List Char} {q : AfRow ℝ} (h : c ∈ rowText fmt q) :
    (∃ x, c ∈ fmt x) ∨ c = ' ' ∨ c = '\t' := by
  rw [rowText, List.mem_append, List.mem_cons, List.mem_append, List.mem_cons, List.mem_append, List.mem_cons] at h
  rcases h with h | h | h | h | h | h | h
  all_goals first
    | exact Or.inr (Or.inr h)
    | rcases mem_padRight h with h | h
      · exact Or.inl ⟨_, h⟩
      · exact Or.inr (Or.inl h)

theorem newline_rowText {fmt : ℝ → List Char} (hf : ∀ x, '\n' ∉ fmt x) (q : AfRow ℝ) : '\n' ∉ rowText fmt q := by
  intro h
  rcases mem_rowText h with ⟨x, h⟩ | h | h
  · exact hf x h
  · exact absurd h (by decide)
  · exact absurd h (by decide)

/-! ## What is written -/

theorem polarText_inv {fit : PolyFit ℝ} {fmt : ℝ → List Char} {p : Polar ℝ} {ls : List (List Char)}
    (h : polarText fit fmt p = .ok ls) : ∃ u : UnsteadyParam ℝ,
    ls = labelled (fmt (p.Re / Num.nat (10 ^ 6))) "Reynolds number in millions." ::
      (List.zipWith (fun x l => labelled (fmt x) l) u.toList paramLabels ++ (p.rows.map (rowText fmt) ++ ["EOT".toList])) := by
  rw [polarText] at h
  cases hu : p.unsteadyparam fit (-Num.nat 5) (Num.nat 5) with
  | error e => simp [hu, bind, Except.bind] at h
  | ok u =>
    simp only [hu, bind, Except.bind, pure, Except.pure, Except.ok.injEq] at h
    exact ⟨u, h.symm⟩

theorem mem_zipWith {β γ δ : Type} {f : β → γ → δ} {l : List β} {m : List γ} {x : δ} (h : x ∈ List.zipWith f l m) :
    ∃ a ∈ l, ∃ b ∈ m, x = f a b := by
  induction l generalizing m with
  | nil => simp at h
  | cons a l ih =>
    cases m with
    | nil => simp at h
    | cons b m =>
      rw [List.zipWith_cons_cons, List.mem_cons] at h
      rcases h with rfl | h
      · exact ⟨a, by simp, b, by simp, rfl⟩
      · obtain ⟨a', ha, b', hb, h⟩ := ih h
        exact ⟨a', by simp [ha], b', by simp [hb], h⟩

theorem newline_paramLabels : ∀ l ∈ paramLabels, '\n' ∉ l.toList := by decide

theorem newline_polarText {fit : PolyFit ℝ} {fmt : ℝ → List Char} (hf : ∀ x, '\n' ∉ fmt x) {p : Polar ℝ}
    {ls : List (List Char)} (h : polarText fit fmt p = .ok ls) : ∀ l ∈ ls, '\n' ∉ l := by
  obtain ⟨u, rfl⟩ := polarText_inv h
  intro l hl
  rw [List.mem_cons, List.mem_append, List.mem_append, List.mem_map, List.mem_singleton] at hl
  rcases hl with rfl | hl | ⟨q, -, rfl⟩ | rfl
  · exact newline_labelled (hf _) (by decide)
  · obtain ⟨x, -, lab, hlab, rfl⟩ := mem_zipWith hl
    exact newline_labelled (hf _) (newline_paramLabels lab hlab)
  · exact newline_rowText hf q
  · decide

theorem toDigits_newline (n : ℕ) : '\n' ∉ Nat.toDigits 10 n := by
  intro h
  have := List.all_eq_true.1 (allDigits_toDigits n) _ h
  revert this
  decide

/-- The line with the number of tables -/
def countLine (n : ℕ) : List Char :=
  padRight 10 (Nat.toDigits 10 n) ++ '\t' :: '\t' :: padRight 40 "Number of airfoil tables in this file".toList

theorem newline_countLine (n : ℕ) : '\n' ∉ countLine n := by
  intro h
  rw [countLine, List.mem_append, List.mem_cons, List.mem_cons] at h
  rcases h with h | h | h | h
  · rcases mem_padRight h with h | h
    · exact toDigits_newline n h
    · exact absurd h (by decide)
  · exact absurd h (by decide)
  · exact absurd h (by decide)
  · rcases mem_padRight h with h | h
    · exact absurd h (by decide)
    · exact absurd h (by decide)

theorem pieces_inv {fit : PolyFit ℝ} {fmt : ℝ → List Char} {af : AfSet ℝ} {ps : List (List Char)}
    (h : af.pieces fit fmt = .ok ps) : ∃ a bodies, af.interpToCommonAlpha none = .ok a ∧
    List.Forall₂ (fun p b => polarText fit fmt p = .ok b) a.polars bodies ∧
    ps = "AeroDyn airfoil file.".toList :: "Compatible with AeroDyn v13.0.".toList :: "Generated by airfoilprep.py".toList ::
      countLine a.polars.length :: bodies.flatten := by
  rw [AfSet.pieces] at h
  cases ha : af.interpToCommonAlpha none with
  | error e => simp [ha, bind, Except.bind] at h
  | ok a =>
    cases hb : a.polars.mapM (polarText fit fmt) with
    | error e => simp [ha, hb, bind, Except.bind] at h
    | ok bodies =>
      simp only [ha, hb, bind, Except.bind, pure, Except.pure, Except.ok.injEq] at h
      refine ⟨a, bodies, rfl, ?_, h.symm⟩
      rw [mapM_ok_iff] at hb
      clear h ha
      generalize a.polars = l at hb
      induction l generalizing bodies with
      | nil => cases bodies with | nil => exact .nil | cons => simp at hb
      | cons p l ih =>
        cases bodies with
        | nil => simp at hb
        | cons b bs =>
          simp only [List.map_cons, List.cons.injEq] at hb
          exact .cons hb.1 (ih bs hb.2)

theorem newline_pieces {fit : PolyFit ℝ} {fmt : ℝ → List Char} (hf : ∀ x, '\n' ∉ fmt x) {af : AfSet ℝ}
    {ps : List (List Char)} (h : af.pieces fit fmt = .ok ps) : ∀ l ∈ ps, '\n' ∉ l := by
  obtain ⟨a, bodies, -, hb, rfl⟩ := pieces_inv h
  intro l hl
  simp only [List.mem_cons, List.mem_flatten] at hl
  rcases hl with rfl | rfl | rfl | rfl | ⟨b, hb', hl⟩
  · decide
  · decide
  · decide
  · exact newline_countLine _
  · obtain ⟨p, -, hp⟩ : ∃ p ∈ a.polars, polarText fit fmt p = .ok b := by
      clear h
      generalize a.polars = l at hb
      induction hb with
      | nil => cases hb'
      | @cons p b' _ _ hp _ ih =>
        rcases List.mem_cons.1 hb' with rfl | hb'
        · exact ⟨p, by simp, hp⟩
        · obtain ⟨q, hq, h⟩ := ih hb'
          exact ⟨q, by simp [hq], h⟩
    exact newline_polarText hf hp l hl

/-! ## Reading back -/

/-- **C67** No file that `writeToAerodynFile` writes can be read: whatever the airfoil, the reader raises `IndexError`, because all the
text is in one line. -/
theorem aerodyn_roundtrip_false (fit : PolyFit ℝ) (fmt : ℝ → List Char) (hf : ∀ x, '\n' ∉ fmt x) (lex : Lex ℝ) (af : AfSet ℝ)
    (text : List Char) (h : af.writeAeroDyn fit fmt = .ok text) (fuel : ℕ) :
    readAeroDyn lex fuel text = some (.error .indexError) := by
  rw [AfSet.writeAeroDyn] at h
  cases hp : af.pieces fit fmt with
  | error e => simp [hp, bind, Except.bind] at h
  | ok ps =>
    simp only [hp, bind, Except.bind, pure, Except.pure, Except.ok.injEq] at h
    subst h
    have hn : '\n' ∉ ps.flatten := by
      rw [List.mem_flatten]
      rintro ⟨l, hl, hc⟩
      exact newline_pieces hf hp l hl hc
    have hl : linesOf ps.flatten = [ps.flatten] := by
      have := List.splitOn_intercalate (ls := [ps.flatten]) '\n' (by simpa using hn) (by simp)
      simpa [linesOf, List.intercalate, List.intersperse] using this
    obtain ⟨-, h2⟩ := readline_lines _ hl
    have h3 : (readline ps.flatten).2 = [] := by
      rcases h2 with ⟨h, -⟩ | h
      · exact h
      · exact absurd h (linesOf_ne_nil _)
    simp [readAeroDyn, h3, readline, readWord, pySplit, splitFrom, pyFirst, bind, Except.bind]

theorem FixedFormat.newline {lex : Lex ℝ} {fmt : ℝ → List Char} {q : ℝ → ℝ} (h : FixedFormat lex fmt q) (x : ℝ) : '\n' ∉ fmt x :=
  fun hm => absurd (h.word x _ hm) (by decide)

theorem startsWith_labelled {lex : Lex ℝ} {fmt : ℝ → List Char} {q : ℝ → ℝ} (h : FixedFormat lex fmt q) (x : ℝ) (label : String) :
    StartsWith lex (labelled (fmt x) label) (q x) :=
  ⟨fmt x, _, by rw [labelled, wordsOf_padded (h.ne x) (h.word x) 10 isWs_tab], h.back x⟩

theorem isRow_rowText {lex : Lex ℝ} {fmt : ℝ → List Char} {q : ℝ → ℝ} (h : FixedFormat lex fmt q) (r : AfRow ℝ) :
    IsRow lex (rowText fmt r) ⟨q r.alpha, q r.cl, q r.cd, q r.cm⟩ := by
  refine ⟨?_, [], ?_⟩
  · intro hm
    have : 'E' ∈ rowText fmt r := hm.subset (by simp)
    rcases mem_rowText this with ⟨x, h'⟩ | h' | h'
    · exact h.noE x h'
    · exact absurd h' (by decide)
    · exact absurd h' (by decide)
  · rw [rowText, wordsOf_padded (h.ne _) (h.word _) 10 isWs_tab, wordsOf_padded (h.ne _) (h.word _) 10 isWs_tab,
      wordsOf_padded (h.ne _) (h.word _) 10 isWs_tab, wordsOf_padded_end (h.ne _) (h.word _)]
    simp [h.back]

/-- The table written for a polar -/
noncomputable def fileTable (q : ℝ → ℝ) (p : Polar ℝ) : AfTable ℝ :=
  ⟨q (p.Re / 1000000), p.rows.map fun r => ⟨q r.alpha, q r.cl, q r.cd, q r.cm⟩⟩

theorem isTable_polarText {lex : Lex ℝ} {fit : PolyFit ℝ} {fmt : ℝ → List Char} {q : ℝ → ℝ} (h : FixedFormat lex fmt q)
    {p : Polar ℝ} {b : List (List Char)} (hb : polarText fit fmt p = .ok b) : IsTable lex b (fileTable q p) := by
  obtain ⟨u, rfl⟩ := polarText_inv hb
  refine ⟨_, _, _, _, rfl, ?_, ?_, ?_, ?_, ⟨[], [], rfl⟩⟩
  · have := startsWith_labelled h (p.Re / Num.nat (10 ^ 6)) "Reynolds number in millions."
    simpa [fileTable, num_real] using this
  · simp [UnsteadyParam.toList, paramLabels]
  · intro l hl
    obtain ⟨x, -, lab, -, rfl⟩ := mem_zipWith hl
    exact ⟨q x, startsWith_labelled h x lab⟩
  · rw [fileTable]
    generalize p.rows = l
    induction l with
    | nil => exact .nil
    | cons r l ih => exact .cons (isRow_rowText h r) ih

theorem rows_cols (p : Polar ℝ) (hl : ∀ c, (p.col c).length = p.alpha.length) :
    p.rows.map AfRow.alpha = p.alpha ∧ p.rows.map AfRow.cl = p.cl ∧ p.rows.map AfRow.cd = p.cd ∧ p.rows.map AfRow.cm = p.cm := by
  have h1 := hl .cl
  have h2 := hl .cd
  have h3 := hl .cm
  simp only [Polar.col] at h1 h2 h3
  obtain ⟨Re, a, cl, cd, cm⟩ := p
  simp only [Polar.rows] at *
  clear hl
  induction a generalizing cl cd cm with
  | nil =>
    simp only [List.length_nil, List.length_eq_zero_iff] at h1 h2 h3
    subst h1 h2 h3
    simp
  | cons x a ih =>
    obtain ⟨y, cl, rfl⟩ := List.exists_cons_of_length_eq_add_one h1
    obtain ⟨z, cd, rfl⟩ := List.exists_cons_of_length_eq_add_one h2
    obtain ⟨w, cm, rfl⟩ := List.exists_cons_of_length_eq_add_one h3
    simp only [List.length_cons, Nat.add_right_cancel_iff] at h1 h2 h3
    obtain ⟨i1, i2, i3, i4⟩ := ih cl cd cm h1 h2 h3
    simp [i1, i2, i3, i4]

theorem fileTable_polar (q : ℝ → ℝ) (p : Polar ℝ) (hl : ∀ c, (p.col c).length = p.alpha.length) :
    (fileTable q p).polar = p.rounded q := by
  obtain ⟨h1, h2, h3, h4⟩ := rows_cols p hl
  rw [Polar.rounded, ← h1, ← h2, ← h3, ← h4]
  simp [fileTable, AfTable.polar]

/-- **C67** (partial) Were each piece of text written followed by a line end, the file would be read back to the polars of
`interpToCommonAlpha`, the numbers (Reynolds number in millions) rounded as in the file.  Missing: the line ends are not written
(`aerodyn_roundtrip_false`), and polars on different angles come back on the common ones. -/
theorem aerodyn_roundtrip_partial (lex : Lex ℝ) (fit : PolyFit ℝ) (fmt : ℝ → List Char) (q : ℝ → ℝ) (hq : FixedFormat lex fmt q)
    (af : AfSet ℝ) (hne : af.polars ≠ []) (hs : (af.polars.map Polar.Re).Pairwise (· ≤ ·)) (hw : ∀ p ∈ af.polars, p.WF)
    (ps : List (List Char)) (h : af.pieces fit fmt = .ok ps) (fuel : ℕ) (hf : (withLines ps).length < fuel) :
    ∃ a af', af.interpToCommonAlpha none = .ok a ∧ readAeroDyn lex fuel (withLines ps) = some (.ok af') ∧
      af'.polars.Perm (a.polars.map (Polar.rounded q)) ∧ (af'.polars.map Polar.Re).Pairwise (· ≤ ·) := by
  obtain ⟨a, bodies, ha, hb, hps⟩ := pieces_inv h
  have hok := interpToCommonAlpha_ok af hne hs hw none
  rw [ha, Except.ok.injEq] at hok
  have hanne : a.polars ≠ [] := by rw [hok]; simpa using hne
  have hlen : ∀ p ∈ a.polars, ∀ c, (p.col c).length = p.alpha.length := by
    intro p hp c
    rw [hok] at hp
    obtain ⟨p0, -, rfl⟩ := List.mem_map.1 hp
    cases c <;> simp [regrid, Polar.col]
  have hwf : WellFormed lex (withLines ps) (a.polars.map (fileTable q)) := by
    refine ⟨"AeroDyn airfoil file.".toList, "Compatible with AeroDyn v13.0.".toList, "Generated by airfoilprep.py".toList,
      countLine a.polars.length, Nat.toDigits 10 a.polars.length,
      wordsOf ('\t' :: padRight 40 "Number of airfoil tables in this file".toList), bodies, [], ?_, ?_, ?_, ?_⟩
    · rw [linesOf_withLines _ (by rw [hps]; simp) (newline_pieces hq.newline h), hps]
      simp
    · rw [countLine, wordsOf_padded Nat.toDigits_ne_nil _ 10 isWs_tab]
      intro c hc
      exact (isDigit_word (List.all_eq_true.1 (allDigits_toDigits _) c hc)).1
    · rw [List.length_map]; exact hq.int _
    · clear hlen hanne h hps ha hok
      generalize a.polars = l at hb
      induction hb with
      | nil => exact .nil
      | cons hp _ ih => exact .cons (isTable_polarText hq hp) ih
  obtain ⟨af', h1, h2, h3⟩ := aerodyn_reader lex _ _ (by simpa using hanne) hwf fuel hf
  refine ⟨a, af', ha, h1, ?_, h3⟩
  rw [List.map_map] at h2
  rwa [show a.polars.map (Polar.rounded q) = a.polars.map (AfTable.polar ∘ fileTable q) from
    List.map_congr_left fun p hp => (fileTable_polar q p (hlen p hp)).symm]

/-- The airfoil used below: one polar of three rows -/
noncomputable def sampleAirfoil : AfSet ℝ := ⟨[⟨1500000, [-180, 0, 180], [0, 1 / 3, 0], [1, 1 / 100, 1], [0, -1 / 20, 0]⟩]⟩

theorem sampleAirfoil_wf : sampleAirfoil.polars ≠ [] ∧ (sampleAirfoil.polars.map Polar.Re).Pairwise (· ≤ ·) ∧
    ∀ p ∈ sampleAirfoil.polars, p.WF := by
  refine ⟨by simp [sampleAirfoil], by simp [sampleAirfoil], ?_⟩
  intro p hp
  simp only [sampleAirfoil, List.mem_singleton] at hp
  subst hp
  exact ⟨by simp, by norm_num [List.pairwise_cons], fun c => by cases c <;> simp [Polar.col]⟩

/-- An airfoil that is written, whatever `np.polyfit` does: its few values count as those of a cylinder. -/
theorem sampleAirfoil_pieces (fit : PolyFit ℝ) : ∃ ps, sampleAirfoil.pieces fit fixed6 = .ok ps := by
  obtain ⟨h1, h2, h3⟩ := sampleAirfoil_wf
  have hg : chosenGrid sampleAirfoil none = [-180, 0, 180] := by
    refine strict_ext (foldl_union_strict _ _ List.Pairwise.nil) (by norm_num [List.pairwise_cons]) fun x => ?_
    rw [chosenGrid, mem_foldl_union]
    simp [sampleAirfoil]
  have hu : ∀ p : Polar ℝ, p.alpha = [-180, 0, 180] → ∃ b, polarText fit fixed6 p = .ok b := by
    intro p hp
    rw [polarText, Polar.unsteadyparam, hp]
    simp [bind, Except.bind, pure, Except.pure]
  obtain ⟨b, hb⟩ := hu (regrid [-180, 0, 180] ⟨1500000, [-180, 0, 180], [0, 1 / 3, 0], [1, 1 / 100, 1], [0, -1 / 20, 0]⟩) rfl
  rw [AfSet.pieces, interpToCommonAlpha_ok _ h1 h2 h3, hg]
  simp only [bind, Except.bind, sampleAirfoil, List.map_cons, List.map_nil, List.mapM_cons, List.mapM_nil, hb, pure, Except.pure]
  exact ⟨_, rfl⟩

/-- The hypotheses of the theorems hold for decimal notation with six digits and `sampleAirfoil`; the text with line ends is read
back, the text written is not. -/
example (fit : PolyFit ℝ) : ∃ text ps, sampleAirfoil.writeAeroDyn fit fixed6 = .ok text ∧
    readAeroDyn decimalLex 1000 text = some (.error .indexError) ∧ sampleAirfoil.pieces fit fixed6 = .ok ps ∧
    ∃ af', readAeroDyn decimalLex ((withLines ps).length + 1) (withLines ps) = some (.ok af') := by
  obtain ⟨ps, hps⟩ := sampleAirfoil_pieces fit
  obtain ⟨h1, h2, h3⟩ := sampleAirfoil_wf
  have ht : sampleAirfoil.writeAeroDyn fit fixed6 = .ok ps.flatten := by
    simp [AfSet.writeAeroDyn, hps, bind, Except.bind, pure, Except.pure]
  obtain ⟨a, af', -, h5, -⟩ := aerodyn_roundtrip_partial decimalLex fit fixed6 round6 fixed6_format sampleAirfoil h1 h2 h3 ps hps
    ((withLines ps).length + 1) (by omega)
  exact ⟨_, ps, ht, aerodyn_roundtrip_false fit fixed6 fixed6_format.newline decimalLex sampleAirfoil _ ht 1000, hps, af', h5⟩

end Verif
