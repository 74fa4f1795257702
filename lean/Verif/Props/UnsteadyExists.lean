import Verif.Props.Unsteady

/-!
# When the unsteady parameters exist (C78)
-/

namespace Verif

/-! ## Specification -/

/-- The differences of neighbouring moments (of next neighbours, halved, inside the table) do not exceed `1e-10`. -/
def FlatMoment (n : ℕ) (M : ℕ → ℝ) : Prop :=
  |M 1 - M 0| ≤ 1 / 10 ^ 10 ∧ |M (n - 1) - M (n - 2)| ≤ 1 / 10 ^ 10 ∧
    ∀ i : ℕ, 0 < i → i + 1 < n → |M (i + 1) - M (i - 1)| / 2 ≤ 1 / 10 ^ 10

/-- The zero-lift angle `a` of a table: 0 for constant lift; otherwise, for rows `lo < hi`, the zero of the lift if it changes sign
once in the rows `lo … hi - 1`, the angle of the last of these rows if the lift is negative there, and of the first one if the lift
is positive there (and not negative in the last). -/
def ZeroLiftAngle (n : ℕ) (A L : ℕ → ℝ) (lo hi : ℕ) (a : ℝ) : Prop :=
  ((∀ i j : ℕ, i < n → j < n → L i = L j) ∧ a = 0) ∨
  ((∃ i j : ℕ, i < n ∧ j < n ∧ L i ≠ L j) ∧ lo < hi ∧
    ((L (hi - 1) < 0 ∧ a = A (hi - 1)) ∨ (0 < L lo ∧ 0 ≤ L (hi - 1) ∧ a = A lo) ∨
      ∃ (k : ℕ) (t : ℝ), lo ≤ k ∧ k + 1 < hi ∧ (∀ i : ℕ, lo ≤ i → i ≤ k → L i ≤ 0) ∧ (∀ i : ℕ, k < i → i < hi → 0 < L i) ∧
        L k + t * (L (k + 1) - L k) = 0 ∧ a = A k + t * (A (k + 1) - A k)))

/-- The same without supposing a single change of sign: the lift passes through zero from below in row `k` or between it and the next. -/
def ZeroLiftCrossing (n : ℕ) (A L : ℕ → ℝ) (lo hi : ℕ) (a : ℝ) : Prop :=
  ((∀ i j : ℕ, i < n → j < n → L i = L j) ∧ a = 0) ∨
  ((∃ i j : ℕ, i < n ∧ j < n ∧ L i ≠ L j) ∧ lo < hi ∧
    ((L (hi - 1) < 0 ∧ a = A (hi - 1)) ∨ (0 < L lo ∧ 0 ≤ L (hi - 1) ∧ a = A lo) ∨
      ∃ (k : ℕ) (t : ℝ), lo ≤ k ∧ (k + 1 < hi ∧ 0 < L (k + 1) ∨ (k + 1 = hi ∧ t = 0)) ∧ 0 ≤ t ∧ t ≤ 1 ∧ L k ≤ 0 ∧
        L k + t * (L (k + 1) - L k) = 0 ∧ a = A k + t * (A (k + 1) - A k)))

/-- The moment curve has the features looked for, with `i0` the row nearest to zero lift: a last local minimum `hi` between the rows
nearest to -30 degrees and to 35 degrees above row `i0`; a row `i1`, at least two rows above `i0`, that exceeds the chord from `i0`
to `hi` the most; a local minimum between the row nearest to 30 degrees below the middle of `i0` and `i1` and row `hi`. -/
def MomentFeatures (n : ℕ) (A M : ℕ → ℝ) (lo i0 : ℕ) : Prop :=
  ∃ hi1 hi i1 lo2 j : ℕ, NearestRow (arr n A) (A i0 + 35) hi1 (A hi1) ∧ LastLocalMin M lo hi1 hi ∧ BreakRow A M i0 hi 1 i1 ∧
    i0 + 2 ≤ i1 ∧ NearestRow (arr n A) ((A i0 + A i1) / 2 - 30) lo2 (A lo2) ∧ LastLocalMin M lo2 hi j

/-! ## Auxiliary facts -/

theorem BreakRow.unique {X Y : ℕ → ℝ} {lo hi : ℕ} {m : ℝ} {i k : ℕ} (hi' : BreakRow X Y lo hi m i) (hk : BreakRow X Y lo hi m k) : i = k := by
  have key : ∀ {i k : ℕ}, BreakRow X Y lo hi m i → BreakRow X Y lo hi m k → ¬ i < k := by
    intro i k h1 h2 hlt
    have hl : lo ≤ i := by rcases h1.1 with h | h <;> omega
    rcases h2.1 with h | ⟨h3, h4, h5⟩
    · omega
    · have h6 := h2.2.2 i hl hlt
      have h7 := h1.2.1 k h3 h4
      rcases le_max_iff.mp h7 with h | h <;> linarith
  have := key hi' hk
  have := key hk hi'
  omega

theorem lastMin_exists (n : ℕ) (Y : ℕ → ℝ) (lo hi i : ℕ) (hhi : hi ≤ n) (h : LastLocalMin Y lo hi i) :
    lastMin (arr n Y) lo hi = .ok i := by
  by_cases hlt : lo < hi
  · exact lastMin_ok n Y lo hi i hhi h hlt
  · rcases h with h | ⟨-, rfl⟩
    · exact absurd h.1 hlt
    · have e : pySlice (arr n Y) i hi = [] := by
        rw [pySlice_arr n i hi Y hhi, show hi - i = 0 by omega]
        rfl
      unfold lastMin
      rw [e]
      have e2 : localMinima ([] : List ℝ) = [0] := by
        simp [localMinima]
      rw [e2]
      simp [pyLast, bind, Except.bind, pure, Except.pure]

theorem maxGrad_le_iff (n : ℕ) (M : ℕ → ℝ) (hn : 2 ≤ n) (g : ℝ) (h : maxGrad (arr n M) = .ok g) : g ≤ 1 / 10 ^ 10 ↔ FlatMoment n M := by
  have h' := h
  unfold maxGrad npGradient1 at h
  rw [arr_length, if_neg (by omega)] at h
  obtain ⟨m, hm⟩ : ∃ m, n = m + 1 := ⟨n - 1, by omega⟩
  constructor
  · intro hg
    refine ⟨(maxGrad_first n M hn g h').trans hg, (maxGrad_last n M hn g h').trans hg, ?_⟩
    intro i h0 h1
    refine le_trans ?_ hg
    refine pyMax_spec _ _ h _ (List.mem_map.mpr ⟨(M (i + 1) - M (i - 1)) / 2, ?_, by rw [real_nabs, abs_div, abs_two]⟩)
    refine List.mem_of_getElem? (i := i) ?_
    rw [arr_getElem? n i _ (by omega), if_neg (by omega), if_neg (by omega), arr_getD n (i + 1) M (by omega),
      arr_getD n (i - 1) M (by omega)]
    simp [num_real]
  · rintro ⟨f1, f2, f3⟩
    obtain ⟨x, hx, rfl⟩ := List.mem_map.mp (pyMax_mem _ _ h)
    obtain ⟨i, hi', rfl⟩ := List.mem_map.mp hx
    have hin := List.mem_range.mp hi'
    rw [real_nabs]
    by_cases h0 : i = 0
    · rw [if_pos h0, arr_getD n 1 M (by omega), arr_getD n 0 M (by omega)]
      exact f1
    · rw [if_neg h0]
      by_cases h1 : i + 1 = n
      · rw [if_pos h1, arr_getD n i M hin, arr_getD n (i - 1) M (by omega), show i = n - 1 by omega, show n - 1 - 1 = n - 2 by omega]
        exact f2
      · rw [if_neg h1, arr_getD n (i + 1) M (by omega), arr_getD n (i - 1) M (by omega), abs_div]
        have := f3 i (by omega) (by omega)
        simpa [num_real] using this

theorem zeroLift_angle (n : ℕ) (A L D M : ℕ → ℝ) (hn : 2 ≤ n) (lo hi : ℕ) (hhi : hi < n) (a : ℝ) (h : ZeroLiftAngle n A L lo hi a) :
    ∃ d m, zeroLift (arr n A) (arr n L) (arr n D) (arr n M) lo hi = .ok (a, d, m) := by
  rcases h with ⟨hc, rfl⟩ | ⟨hne, hlt, h⟩
  · have e : arr n L = arr n fun _ => L 0 :=
      List.map_congr_left fun i hi' => hc i 0 (List.mem_range.mp hi') (by omega)
    rw [e]
    obtain ⟨g, hg⟩ := maxGrad_ok n (fun _ => L 0) hn
    obtain ⟨i, hi1, hi2⟩ := nearest_ok n A (by omega) 0
    unfold zeroLift
    simp only [hg, bind, Except.bind]
    rw [if_neg (not_lt.mpr (maxGrad_const n (L 0) g hg)), hi2]
    simp only [pyGet_ok (arr_getElem? n i D hi1)]
    exact ⟨_, _, rfl⟩
  · rw [zeroLift_curve n A L D M hn lo hi hne]
    have e : lo + (hi - lo - 1) = hi - 1 := by omega
    rcases h with ⟨h1, rfl⟩ | ⟨h1, h2, rfl⟩ | ⟨k, t, hk, hk1, hneg, hpos, ht, rfl⟩
    · have key : ∀ Y : ℕ → ℝ, npInterp 0 ((pySlice (arr n L) lo hi).zip (pySlice (arr n Y) lo hi)) = .ok (Y (hi - 1)) := by
        intro Y
        rw [zip_slices n lo hi hhi.le, npInterp_high (hi - lo) (by omega) (fun i => L (lo + i)) (fun i => Y (lo + i)) 0
          (by rw [e]; exact h1), e]
      rw [key A, key D, key M]
      exact ⟨_, _, rfl⟩
    · have key : ∀ Y : ℕ → ℝ, npInterp 0 ((pySlice (arr n L) lo hi).zip (pySlice (arr n Y) lo hi)) = .ok (Y lo) := by
        intro Y
        rw [zip_slices n lo hi hhi.le, npInterp_low (hi - lo) (by omega) (fun i => L (lo + i)) (fun i => Y (lo + i)) 0
          (by simpa using h1) (by rw [e]; exact h2)]
        rfl
      rw [key A, key D, key M]
      exact ⟨_, _, rfl⟩
    · obtain ⟨j, s, j1, j2, -, -, j5, j6, hY⟩ := interp_zero n lo hi L hhi.le (hneg lo le_rfl hk)
        (hpos (hi - 1) (by omega) (by omega)).le hlt
      have hk' := hneg k hk le_rfl
      have hk1' := hpos (k + 1) (by omega) hk1
      obtain rfl : j = k := by
        have hj : j ≤ k := by
          by_contra hj
          exact absurd (hpos j (by omega) (by omega)) (not_lt.mpr j5)
        rcases j2 with ⟨a, b⟩ | ⟨a, -⟩
        · by_contra hjk
          exact absurd (hneg (j + 1) (by omega) (by omega)) (not_le.mpr b)
        · omega
      have : s = t := mul_right_cancel₀ (show L (j + 1) - L j ≠ 0 by linarith) (by linarith)
      rw [hY A, hY D, hY M, this]
      exact ⟨_, _, rfl⟩

/-! ## The condition -/

/-- The condition, once the zero-lift angle `a` is known. -/
private theorem evalUnsteady_iff (n : ℕ) (A L D M : ℕ → ℝ) (hn : 2 ≤ n) (hA : ∀ i j : ℕ, i < j → j < n → A i < A j) (lo hi i0 : ℕ) (a : ℝ)
    (hlo : NearestRow (arr n A) (-30) lo (A lo)) (hhi : NearestRow (arr n A) 30 hi (A hi))
    (hz : ∃ d m, zeroLift (arr n A) (arr n L) (arr n D) (arr n M) lo hi = .ok (a, d, m)) (h0 : NearestRow (arr n A) a i0 (A i0)) :
    (∃ u, evalUnsteady (arr n A) (arr n L) (arr n D) (arr n M) = .ok u) ↔ FlatMoment n M ∨ MomentFeatures n A M lo i0 := by
  have hlon := hlo.lt
  have hhin := hhi.lt
  have h0n := h0.lt
  rw [arr_length] at hlon hhin h0n
  obtain ⟨d, m, hz⟩ := hz
  obtain ⟨g, hg⟩ := maxGrad_ok n M hn
  have hgi := maxGrad_le_iff n M hn g hg
  have hin : ∀ {l h' k : ℕ}, l < n → h' ≤ n → LastLocalMin M l h' k → k < n := by
    intro l h' k hl hh hm
    rcases hm with ⟨-, hm, -⟩ | ⟨-, hm⟩
    · exact lt_of_lt_of_le hm.2.1 hh
    · omega
  have estart : evalUnsteady (arr n A) (arr n L) (arr n D) (arr n M) = evalUnsteady (arr n A) (arr n L) (arr n D) (arr n M) := rfl
  conv_rhs at estart => unfold evalUnsteady
  rw [nearest_of (by simpa [num_real] using hlo), nearest_of (by simpa [num_real] using hhi)] at estart
  simp only [bind, Except.bind, hz, nearest_of h0, hg] at estart
  rw [estart]
  clear estart
  by_cases hf : g ≤ 1 / 10 ^ 10
  · rw [if_neg (by simp only [num_real]; push_cast; linarith)]
    exact ⟨fun _ => .inl (hgi.mp hf), fun _ => ⟨_, rfl⟩⟩
  rw [if_pos (by simp only [num_real]; push_cast; linarith)]
  have hnf : ¬ FlatMoment n M := fun h => hf (hgi.mpr h)
  have hAg : ∀ k : ℕ, k < n → pyGet (arr n A) k = .ok (A k) := fun k hk => pyGet_ok (arr_getElem? n k A hk)
  have hCg : ∀ k : ℕ, k < n → pyGet (cnCurve (arr n A) (arr n L) (arr n D)) k = .ok (normalRow A L D k) := fun k hk => by
    rw [cnCurve_arr]; exact pyGet_ok (arr_getElem? n k _ hk)
  obtain ⟨hi1, hhi1, e1⟩ := nearest_ok n A (by omega) (A i0 + 35)
  have hN1 := (nearest_row e1).2
  have e1' : nearest (arr n A) (A i0 + Num.nat 35) = .ok hi1 := by simpa [num_real] using e1
  obtain ⟨lo3, hlo3, e3⟩ := nearest_ok n A (by omega) 0
  rw [hAg i0 h0n]
  simp only [e1']
  have hfeat : MomentFeatures n A M lo i0 ↔ ∃ hi i1 lo2 j : ℕ, lastMin (arr n M) lo hi1 = .ok hi ∧
      findBreakpoint (arr n A) (arr n M) i0 hi 1 = .ok i1 ∧ i0 + 2 ≤ i1 ∧ i1 < n ∧
      nearest (arr n A) ((A i0 + A i1) / 2 - 30) = .ok lo2 ∧ lastMin (arr n M) lo2 hi = .ok j := by
    constructor
    · rintro ⟨hi1', h2, i1, lo2, j, f1, f2, f3, f4, f5, f6⟩
      obtain rfl := f1.unique hN1
      have h2n := hin hlon hhi1.le f2
      obtain ⟨i, ei, bi⟩ := findBreakpoint_best n A M hA i0 h2 h0n h2n 1
      obtain rfl := bi.unique f3
      have hi1n : i < n := by rcases f3.1 with h | h <;> omega
      exact ⟨h2, i, lo2, j, lastMin_exists n M lo _ h2 hhi1.le f2, ei, f4, hi1n, nearest_of f5, lastMin_exists n M lo2 h2 j h2n.le f6⟩
    · rintro ⟨h2, i1, lo2, j, f1, f2, f3, f4, f5, f6⟩
      have f1' := lastMin_spec n M lo hi1 h2 hhi1.le f1
      have h2n := hin hlon hhi1.le f1'
      obtain ⟨i, ei, bi⟩ := findBreakpoint_best n A M hA i0 h2 h0n h2n 1
      rw [ei] at f2
      cases f2
      exact ⟨hi1, h2, i1, lo2, j, hN1, f1', bi, f3, (nearest_row f5).2, lastMin_spec n M lo2 h2 j h2n.le f6⟩
  rw [hfeat]
  constructor
  · rintro ⟨u, h⟩
    right
    change Except.bind (lastMin (arr n M) lo hi1) _ = _ at h
    obtain ⟨h2, f1, h⟩ := bind_inv h
    obtain ⟨i1, f2, h⟩ := bind_inv h
    obtain ⟨_, -, h⟩ := bind_inv h
    obtain ⟨a1, f4, h⟩ := bind_inv h
    obtain ⟨lo2, f5, h⟩ := bind_inv h
    obtain ⟨j, f6, h⟩ := bind_inv h
    obtain ⟨_, -, h⟩ := bind_inv h
    obtain ⟨_, -, h⟩ := bind_inv h
    obtain ⟨gr, f7, h⟩ := bind_inv h
    obtain ⟨hi1n, rfl⟩ := arr_lt_of_get (pyGet_inv f4)
    refine ⟨h2, i1, lo2, j, f1, f2, ?_, hi1n, by simpa [num_real] using f5, f6⟩
    unfold npGradient at f7
    rw [cnCurve_arr, pySlice_arr n i0 i1 _ hi1n.le] at f7
    by_contra hc
    rw [if_pos (by simp; omega)] at f7
    cases f7
  · rintro (h | ⟨h2, i1, lo2, j, f1, f2, f3, hi1n, f5, f6⟩)
    · exact absurd h hnf
    have f5' : nearest (arr n A) ((A i0 + A i1) / Num.nat 2 - Num.nat 30) = .ok lo2 := by simpa [num_real] using f5
    have hlo2 := (nearest_row f5).1
    obtain ⟨i2, e2, b2⟩ := findBreakpoint_best n A M hA lo2 i0 hlo2 h0n 0
    have hi2n : i2 < n := by rcases b2.1 with h | h <;> omega
    obtain ⟨i3, e4, b3⟩ := findBreakpoint_best n A D hA lo3 i1 hlo3 hi1n (-1)
    have hi3n : i3 < n := by rcases b3.1 with h | h <;> omega
    have hgr : ∃ x l, npGradient (pySlice (cnCurve (arr n A) (arr n L) (arr n D)) i0 i1) (pySlice ((arr n A).map deg2rad) i0 i1)
        = .ok (x :: l) := by
      unfold npGradient
      rw [cnCurve_arr, pySlice_arr n i0 i1 _ hi1n.le]
      simp only [List.length_map, List.length_range']
      rw [if_neg (by omega)]
      obtain ⟨q, hq⟩ : ∃ q, i1 - i0 = q + 1 := ⟨i1 - i0 - 1, by omega⟩
      rw [hq, arr_cons]
      exact ⟨_, _, rfl⟩
    obtain ⟨x, l, hgr⟩ := hgr
    simp only [f1, f2, hCg i1 hi1n, hAg i1 hi1n, f5', f6, e2, hCg i2 hi2n, hgr, pyMax, e3, e4, hAg i3 hi3n]
    exact ⟨_, rfl⟩

/-- **C78** Exactly when `eval_unsteady` succeeds, for a table of at least two rows with increasing angles and the zero-lift angle
`a`: the moment is flat, or its curve has the features looked for. -/
theorem evalUnsteady_exists_iff (n : ℕ) (A L D M : ℕ → ℝ) (hn : 2 ≤ n) (hA : ∀ i j : ℕ, i < j → j < n → A i < A j) (lo hi i0 : ℕ) (a : ℝ)
    (hlo : NearestRow (arr n A) (-30) lo (A lo)) (hhi : NearestRow (arr n A) 30 hi (A hi)) (ha : ZeroLiftAngle n A L lo hi a)
    (h0 : NearestRow (arr n A) a i0 (A i0)) :
    (∃ u, evalUnsteady (arr n A) (arr n L) (arr n D) (arr n M) = .ok u) ↔ FlatMoment n M ∨ MomentFeatures n A M lo i0 := by
  have hhin := hhi.lt
  rw [arr_length] at hhin
  exact evalUnsteady_iff n A L D M hn hA lo hi i0 a hlo hhi (zeroLift_angle n A L D M hn lo hi hhin a ha) h0

theorem nearest_le (n : ℕ) (A : ℕ → ℝ) (hA : ∀ i j : ℕ, i < j → j < n → A i < A j) (lo hi : ℕ)
    (hlo : NearestRow (arr n A) (-30) lo (A lo)) (hhi : NearestRow (arr n A) 30 hi (A hi)) : lo ≤ hi := by
  by_contra h
  push Not at h
  have hln := hlo.lt
  rw [arr_length] at hln
  have hlt := hA hi lo h hln
  have h1 := hlo.2.1 hi (A hi) hhi.1
  have h2 := hhi.2.1 lo (A lo) hlo.1
  have s1 := sq_le_sq.mpr h1
  have s2 := sq_le_sq.mpr h2
  nlinarith

/-- **C78** Whatever the lift, on every table of at least two rows with increasing angles (the rows nearest to -30 and 30 degrees
distinct, or the lift constant): some zero-lift angle is found, and success depends on the moment as described for it. -/
theorem evalUnsteady_exists_any (n : ℕ) (A L D M : ℕ → ℝ) (hn : 2 ≤ n) (hA : ∀ i j : ℕ, i < j → j < n → A i < A j) (lo hi : ℕ)
    (hlo : NearestRow (arr n A) (-30) lo (A lo)) (hhi : NearestRow (arr n A) 30 hi (A hi))
    (hl : lo ≠ hi ∨ ∀ i j : ℕ, i < n → j < n → L i = L j) :
    ∃ a i0, ZeroLiftCrossing n A L lo hi a ∧ NearestRow (arr n A) a i0 (A i0) ∧
      ((∃ u, evalUnsteady (arr n A) (arr n L) (arr n D) (arr n M) = .ok u) ↔ FlatMoment n M ∨ MomentFeatures n A M lo i0) := by
  have hhin := hhi.lt
  rw [arr_length] at hhin
  have key : ∃ a, ZeroLiftCrossing n A L lo hi a ∧ ∃ d m, zeroLift (arr n A) (arr n L) (arr n D) (arr n M) lo hi = .ok (a, d, m) := by
    by_cases hc : ∀ i j : ℕ, i < n → j < n → L i = L j
    · exact ⟨0, .inl ⟨hc, rfl⟩, zeroLift_angle n A L D M hn lo hi hhin 0 (.inl ⟨hc, rfl⟩)⟩
    have hne : ∃ i j : ℕ, i < n ∧ j < n ∧ L i ≠ L j := by
      push Not at hc
      obtain ⟨i, j, h1, h2, h3⟩ := hc
      exact ⟨i, j, h1, h2, h3⟩
    have hlt : lo < hi := lt_of_le_of_ne (nearest_le n A hA lo hi hlo hhi) (hl.resolve_right hc)
    rcases lt_or_ge (L (hi - 1)) 0 with h1 | h1
    · exact ⟨A (hi - 1), .inr ⟨hne, hlt, .inl ⟨h1, rfl⟩⟩, zeroLift_angle n A L D M hn lo hi hhin _ (.inr ⟨hne, hlt, .inl ⟨h1, rfl⟩⟩)⟩
    rcases lt_or_ge 0 (L lo) with h2 | h2
    · exact ⟨A lo, .inr ⟨hne, hlt, .inr (.inl ⟨h2, h1, rfl⟩)⟩, zeroLift_angle n A L D M hn lo hi hhin _ (.inr ⟨hne, hlt, .inr (.inl ⟨h2, h1, rfl⟩)⟩)⟩
    obtain ⟨k, t, k1, k2, k3, k4, k5, k6, hY⟩ := interp_zero n lo hi L hhin.le h2 h1 hlt
    refine ⟨A k + t * (A (k + 1) - A k), .inr ⟨hne, hlt, .inr (.inr ⟨k, t, k1, k2, k3, k4, k5, k6, rfl⟩)⟩, ?_⟩
    rw [zeroLift_curve n A L D M hn lo hi hne, hY A, hY D, hY M]
    exact ⟨_, _, rfl⟩
  obtain ⟨a, h1, h2⟩ := key
  obtain ⟨i0, hi0, e0⟩ := nearest_ok n A (by omega) a
  have h0 := (nearest_row e0).2
  exact ⟨a, i0, h1, h0, evalUnsteady_iff n A L D M hn hA lo hi i0 a hlo hhi h2 h0⟩

/-- **C78** A table whose lift is not constant and whose rows nearest to -30 and 30 degrees coincide is refused. -/
theorem evalUnsteady_narrow (n : ℕ) (A L D M : ℕ → ℝ) (hn : 2 ≤ n) (lo : ℕ) (hne : ∃ i j : ℕ, i < n ∧ j < n ∧ L i ≠ L j)
    (hlo : NearestRow (arr n A) (-30) lo (A lo)) (hhi : NearestRow (arr n A) 30 lo (A lo)) :
    evalUnsteady (arr n A) (arr n L) (arr n D) (arr n M) = .error .valueError := by
  have hlon := hlo.lt
  rw [arr_length] at hlon
  unfold evalUnsteady
  rw [nearest_of (by simpa [num_real] using hlo), nearest_of (by simpa [num_real] using hhi)]
  simp only [bind, Except.bind]
  rw [zeroLift_curve n A L D M hn lo lo hne, zip_slices n lo lo hlon.le, Nat.sub_self]
  rfl

/-- The hypotheses of `evalUnsteady_exists_iff` and the second alternative hold for a table in steps of five degrees whose moment
falls from 15 degrees on; any drag will do. -/
example (D : ℕ → ℝ) : ¬ FlatMoment 17 breakMoment ∧ MomentFeatures 17 (fun i => 5 * (i:ℝ) - 40) breakMoment 2 8 ∧
    ∃ u, evalUnsteady (arr 17 fun i => 5 * (i:ℝ) - 40) (arr 17 fun i => (i:ℝ) - 8) (arr 17 D) (arr 17 breakMoment) = .ok u := by
  have near : ∀ (k : ℕ) (x : ℝ), k < 17 → -(5 / 2) ≤ 5 * (k:ℝ) - 40 - x → 5 * (k:ℝ) - 40 - x < 5 / 2 →
      NearestRow (arr 17 fun i => 5 * (i:ℝ) - 40) x k (5 * (k:ℝ) - 40) := fun k x hk h1 h2 => (nearest_row (fives_nearest k hk x h1 h2)).2
  have hmin : ∀ lo hi : ℕ, lo ≤ 11 → 12 < hi → LastLocalMin breakMoment lo hi (hi - 1) := by
    intro lo hi hlo hhi
    have h1 : LocalMin breakMoment lo hi (hi - 1) := by
      refine ⟨by omega, by omega, .inr ?_, .inl (by omega)⟩
      obtain ⟨m, rfl⟩ : ∃ m, hi = m + 13 := ⟨hi - 13, by omega⟩
      simp only [breakMoment, show ¬ m + 13 - 1 ≤ 11 by omega, if_false]
      rw [show m + 13 - 1 = m + 12 by omega, show m + 12 - 1 = m + 11 by omega]
      split_ifs with h
      · push_cast; linarith [show (0:ℝ) ≤ m by positivity]
      · push_cast; linarith
    exact .inl ⟨by omega, h1, fun j hj => by have := hj.2.1; omega⟩
  have hbreak : BreakRow (fun i => 5 * (i:ℝ) - 40) breakMoment 8 14 1 11 := by
    obtain ⟨i, -, hi⟩ := findBreakpoint_best 17 (fun i => 5 * (i:ℝ) - 40) breakMoment fives_inc 8 14 (by norm_num) (by norm_num) 1
    have e : ∀ k : ℕ, chordDev (fun i => 5 * (i:ℝ) - 40) breakMoment 8 14 1 k = breakMoment k + (k - 8) / 2 := by
      intro k
      simp only [chordDev, breakMoment]; norm_num; ring
    have h3 := hi.2.1 11 (by norm_num) (by norm_num)
    simp only [e] at h3
    have hlt : 8 ≤ i ∧ i < 14 := by rcases hi.1 with h | h <;> omega
    obtain ⟨h5, h6⟩ := hlt
    have : i = 11 := by
      interval_cases i
      all_goals first
        | rfl
        | (exfalso; norm_num [breakMoment] at h3)
    exact this ▸ hi
  have hfeat : MomentFeatures 17 (fun i => 5 * (i:ℝ) - 40) breakMoment 2 8 :=
    ⟨15, 14, 11, 3, 13, near 15 _ (by norm_num) (by norm_num) (by norm_num), hmin 2 15 (by norm_num) (by norm_num), hbreak, by norm_num,
      near 3 _ (by norm_num) (by norm_num) (by norm_num), hmin 3 14 (by norm_num) (by norm_num)⟩
  refine ⟨fun h => ?_, hfeat, ?_⟩
  · have := h.2.1
    norm_num [breakMoment] at this
  · refine (evalUnsteady_exists_iff 17 (fun i => 5 * (i:ℝ) - 40) (fun i => (i:ℝ) - 8) D breakMoment (by norm_num) fives_inc 2 14 8 0
      (near 2 _ (by norm_num) (by norm_num) (by norm_num)) (near 14 _ (by norm_num) (by norm_num) (by norm_num)) ?_
      (near 8 _ (by norm_num) (by norm_num) (by norm_num))).mpr (.inr hfeat)
    refine .inr ⟨⟨0, 1, by norm_num, by norm_num, by norm_num⟩, by norm_num, .inr (.inr ⟨8, 0, by norm_num, by norm_num, ?_, ?_, by norm_num,
      by norm_num⟩)⟩
    · intro i _ h
      have : (i:ℝ) ≤ 8 := by exact_mod_cast h
      linarith
    · intro i h _
      have : (8:ℝ) < i := by exact_mod_cast h
      linarith

/-- `evalUnsteady_exists_any` on lift that changes sign at every row; with a flat moment the parameters exist. -/
example : ∃ u, evalUnsteady (arr 17 fun i => 5 * (i:ℝ) - 40) (arr 17 fun i => (-1:ℝ) ^ i) (arr 17 fun _ => (1:ℝ)) (arr 17 fun _ => (0:ℝ)) = .ok u := by
  have near : ∀ (k : ℕ) (x : ℝ), k < 17 → -(5 / 2) ≤ 5 * (k:ℝ) - 40 - x → 5 * (k:ℝ) - 40 - x < 5 / 2 →
      NearestRow (arr 17 fun i => 5 * (i:ℝ) - 40) x k (5 * (k:ℝ) - 40) := fun k x hk h1 h2 => (nearest_row (fives_nearest k hk x h1 h2)).2
  obtain ⟨a, i0, -, -, h⟩ := evalUnsteady_exists_any 17 (fun i => 5 * (i:ℝ) - 40) (fun i => (-1:ℝ) ^ i) (fun _ => 1) (fun _ => 0) (by norm_num) fives_inc
    2 14 (near 2 _ (by norm_num) (by norm_num) (by norm_num)) (near 14 _ (by norm_num) (by norm_num) (by norm_num)) (.inl (by norm_num))
  exact h.mpr (.inl ⟨by norm_num, by norm_num, fun i _ _ => by norm_num⟩)

/-- The hypotheses of `evalUnsteady_narrow`: rows at 0 and 100 degrees -/
example : evalUnsteady (arr 2 fun i => 100 * (i:ℝ)) (arr 2 fun i => (i:ℝ)) (arr 2 fun _ => (1:ℝ)) (arr 2 fun _ => (0:ℝ))
    = .error .valueError := by
  have near : ∀ x : ℝ, x < 50 → NearestRow (arr 2 fun i => 100 * (i:ℝ)) x 0 (100 * ((0:ℕ):ℝ)) := by
    intro x hx
    refine ⟨arr_getElem? 2 0 _ (by norm_num), ?_, fun j _ hj => absurd hj (Nat.not_lt_zero j)⟩
    intro j c hc
    obtain ⟨hj, rfl⟩ := arr_lt_of_get hc
    interval_cases j
    · exact le_rfl
    · norm_num
      exact abs_le.mpr ⟨by linarith [le_abs_self (100 - x)], by linarith [le_abs_self (100 - x)]⟩
  exact evalUnsteady_narrow 2 _ _ _ _ le_rfl 0 ⟨0, 1, by norm_num, by norm_num, by norm_num⟩ (near _ (by norm_num)) (near _ (by norm_num))

/-! ## How it fails -/

theorem lastMin_none (n : ℕ) (Y : ℕ → ℝ) (lo hi : ℕ) (hhi : hi ≤ n) (hlt : lo < hi) (h : ∀ j, ¬ LocalMin Y lo hi j) :
    lastMin (arr n Y) lo hi = .error .indexError := by
  unfold lastMin pyLast
  cases e : (localMinima (pySlice (arr n Y) lo hi)).getLast? with
  | none => rfl
  | some i =>
    exfalso
    have := List.mem_of_getLast? e
    rw [mem_localMinima n Y lo hi hhi hlt] at this
    exact h _ this

/-- **C78** A moment curve that is not flat and has no strict local minimum between the rows nearest to -30 degrees and to 35 degrees
above zero lift: `IndexError`. -/
theorem evalUnsteady_no_minimum (n : ℕ) (A L D M : ℕ → ℝ) (hn : 2 ≤ n) (lo hi i0 hi1 : ℕ) (a : ℝ)
    (hlo : NearestRow (arr n A) (-30) lo (A lo)) (hhi : NearestRow (arr n A) 30 hi (A hi)) (ha : ZeroLiftAngle n A L lo hi a)
    (h0 : NearestRow (arr n A) a i0 (A i0)) (hf : ¬ FlatMoment n M) (h1 : NearestRow (arr n A) (A i0 + 35) hi1 (A hi1))
    (hlt : lo < hi1) (hnone : ∀ j, ¬ LocalMin M lo hi1 j) :
    evalUnsteady (arr n A) (arr n L) (arr n D) (arr n M) = .error .indexError := by
  have hhin := hhi.lt
  have h0n := h0.lt
  have h1n := h1.lt
  rw [arr_length] at hhin h0n h1n
  obtain ⟨d, m, hz⟩ := zeroLift_angle n A L D M hn lo hi hhin a ha
  obtain ⟨g, hg⟩ := maxGrad_ok n M hn
  have hgi := maxGrad_le_iff n M hn g hg
  unfold evalUnsteady
  rw [nearest_of (by simpa [num_real] using hlo), nearest_of (by simpa [num_real] using hhi)]
  simp only [bind, Except.bind, hz, nearest_of h0, hg]
  rw [if_pos (by
    have : ¬ g ≤ 1 / 10 ^ 10 := fun h => hf (hgi.mp h)
    simp only [num_real]; push_cast; linarith)]
  have e1' : nearest (arr n A) (A i0 + Num.nat 35) = .ok hi1 := by
    have := nearest_of h1
    simpa [num_real] using this
  rw [pyGet_ok (arr_getElem? n i0 A h0n)]
  simp only [e1', lastMin_none n M lo hi1 h1n.le hlt hnone]

/-- **C78** A moment curve with the local minima looked for, whose break point is less than two rows above the row of zero lift:
`ValueError`. -/
theorem evalUnsteady_short_break (n : ℕ) (A L D M : ℕ → ℝ) (hn : 2 ≤ n) (hA : ∀ i j : ℕ, i < j → j < n → A i < A j) (lo hi i0 hi1 hi2 i1 lo2 j : ℕ)
    (a : ℝ) (hlo : NearestRow (arr n A) (-30) lo (A lo)) (hhi : NearestRow (arr n A) 30 hi (A hi)) (ha : ZeroLiftAngle n A L lo hi a)
    (h0 : NearestRow (arr n A) a i0 (A i0)) (hf : ¬ FlatMoment n M) (h1 : NearestRow (arr n A) (A i0 + 35) hi1 (A hi1))
    (h2 : LastLocalMin M lo hi1 hi2) (hb : BreakRow A M i0 hi2 1 i1) (hshort : i1 < i0 + 2)
    (h3 : NearestRow (arr n A) ((A i0 + A i1) / 2 - 30) lo2 (A lo2)) (h4 : LastLocalMin M lo2 hi2 j) :
    evalUnsteady (arr n A) (arr n L) (arr n D) (arr n M) = .error .valueError := by
  have hlon := hlo.lt
  have hhin := hhi.lt
  have h0n := h0.lt
  have h1n := h1.lt
  have h3n := h3.lt
  rw [arr_length] at hlon hhin h0n h1n h3n
  have h2n : hi2 < n := by
    rcases h2 with ⟨-, hm, -⟩ | ⟨-, hm⟩
    · exact lt_of_lt_of_le hm.2.1 h1n.le
    · omega
  obtain ⟨d, m, hz⟩ := zeroLift_angle n A L D M hn lo hi hhin a ha
  obtain ⟨g, hg⟩ := maxGrad_ok n M hn
  have hgi := maxGrad_le_iff n M hn g hg
  obtain ⟨i, ei, bi⟩ := findBreakpoint_best n A M hA i0 hi2 h0n h2n 1
  obtain rfl := bi.unique hb
  have hin : i < n := by rcases hb.1 with h | h <;> omega
  obtain ⟨i2, e2, b2⟩ := findBreakpoint_best n A M hA lo2 i0 h3n h0n 0
  have hi2n : i2 < n := by rcases b2.1 with h | h <;> omega
  have hAg : ∀ k : ℕ, k < n → pyGet (arr n A) k = .ok (A k) := fun k hk => pyGet_ok (arr_getElem? n k A hk)
  have hCg : ∀ k : ℕ, k < n → pyGet (cnCurve (arr n A) (arr n L) (arr n D)) k = .ok (normalRow A L D k) := fun k hk => by
    rw [cnCurve_arr]; exact pyGet_ok (arr_getElem? n k _ hk)
  unfold evalUnsteady
  rw [nearest_of (by simpa [num_real] using hlo), nearest_of (by simpa [num_real] using hhi)]
  simp only [bind, Except.bind, hz, nearest_of h0, hg]
  rw [if_pos (by
    have : ¬ g ≤ 1 / 10 ^ 10 := fun h => hf (hgi.mp h)
    simp only [num_real]; push_cast; linarith)]
  have e1' : nearest (arr n A) (A i0 + Num.nat 35) = .ok hi1 := by
    have := nearest_of h1
    simpa [num_real] using this
  have e3' : nearest (arr n A) ((A i0 + A i) / Num.nat 2 - Num.nat 30) = .ok lo2 := by
    have := nearest_of h3
    simpa [num_real] using this
  have hgr : npGradient (pySlice (cnCurve (arr n A) (arr n L) (arr n D)) i0 i) (pySlice ((arr n A).map deg2rad) i0 i) =
      .error .valueError := by
    unfold npGradient
    rw [cnCurve_arr, pySlice_arr n i0 i _ hin.le, if_pos (by simp; omega)]
  simp only [hAg i0 h0n, e1', lastMin_exists n M lo hi1 hi2 h1n.le h2, ei, hCg i hin, hAg i hin, e3', lastMin_exists n M lo2 hi2 j h2n.le h4,
    e2, hCg i2 hi2n, hgr]

/-- A table in steps of five degrees whose moment is constant up to 35 degrees and then rises has no strict local minimum. -/
example (D : ℕ → ℝ) : evalUnsteady (arr 17 fun i => 5 * (i:ℝ) - 40) (arr 17 fun i => (i:ℝ) - 8) (arr 17 D)
    (arr 17 fun i => if i = 16 then 1 else 0) = .error .indexError := by
  have near : ∀ (k : ℕ) (x : ℝ), k < 17 → -(5 / 2) ≤ 5 * (k:ℝ) - 40 - x → 5 * (k:ℝ) - 40 - x < 5 / 2 →
      NearestRow (arr 17 fun i => 5 * (i:ℝ) - 40) x k (5 * (k:ℝ) - 40) := fun k x hk h1 h2 => (nearest_row (fives_nearest k hk x h1 h2)).2
  refine evalUnsteady_no_minimum 17 (fun i => 5 * (i:ℝ) - 40) (fun i => (i:ℝ) - 8) D (fun i => if i = 16 then 1 else 0) (by norm_num) 2 14 8 15 0
    (near 2 _ (by norm_num) (by norm_num) (by norm_num)) (near 14 _ (by norm_num) (by norm_num) (by norm_num)) ?_
    (near 8 _ (by norm_num) (by norm_num) (by norm_num)) (fun h => ?_) (near 15 _ (by norm_num) (by norm_num) (by norm_num)) (by norm_num) ?_
  · refine .inr ⟨⟨0, 1, by norm_num, by norm_num, by norm_num⟩, by norm_num, .inr (.inr ⟨8, 0, by norm_num, by norm_num, ?_, ?_, by norm_num,
      by norm_num⟩)⟩
    · intro i _ h
      have : (i:ℝ) ≤ 8 := by exact_mod_cast h
      linarith
    · intro i h _
      have : (8:ℝ) < i := by exact_mod_cast h
      linarith
  · have := h.2.1
    norm_num at this
  · rintro j ⟨h1, h2, h3, h4⟩
    rcases h3 with rfl | h3
    · norm_num at h4
    · interval_cases j <;> norm_num at h3

end Verif
