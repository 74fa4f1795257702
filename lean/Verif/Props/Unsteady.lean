import Verif.Lemmas.AfSearch
import Verif.Lemmas.Interp
import Mathlib.Tactic.FieldSimp
import Mathlib.Tactic.IntervalCases

/-!
# Unsteady parameters (C55, C77, C78)
-/

namespace Verif

/-! ## `find_breakpoint` -/

section generic
variable {α : Type} [Num α]

theorem bind_inv {ε β γ : Type} {x : Except ε β} {f : β → Except ε γ} {c : γ} (h : (x >>= f) = .ok c) :
    ∃ b, x = .ok b ∧ f b = .ok c := by
  cases x with
  | error e => cases h
  | ok b => exact ⟨b, rfl, h⟩

theorem breakLoop_range (multi : α) : ∀ (l : List (α × α)) (i brk : ℕ) (diff : α),
    breakLoop multi l i brk diff = brk ∨
      (i ≤ breakLoop multi l i brk diff ∧ breakLoop multi l i brk diff < i + l.length)
  | [], _, _, _ => .inl rfl
  | (fit, y) :: l, i, brk, diff => by
    simp only [breakLoop, List.length_cons]
    split_ifs <;>
    · first
      | (rcases breakLoop_range multi l (i + 1) i _ with h | h
         · right; rw [h]; omega
         · right; omega)
      | (rcases breakLoop_range multi l (i + 1) brk diff with h | h
         · left; exact h
         · right; omega)

/-- **C55** `find_breakpoint` returns an index of the searched interval, its lower end if the interval is empty, for every
signal (any scalar type, NaN included). -/
theorem findBreakpoint_range (x y : List α) (lo hi : ℕ) (multi : α) (i : ℕ) (h : findBreakpoint x y lo hi multi = .ok i) :
    lo ≤ i ∧ (lo < hi → i < hi) ∧ (hi ≤ lo → i = lo) ∧ lo < x.length ∧ hi < x.length := by
  unfold findBreakpoint at h
  obtain ⟨x0, h0, h⟩ := bind_inv h
  obtain ⟨x1, h1, h⟩ := bind_inv h
  obtain ⟨y0, h2, h⟩ := bind_inv h
  obtain ⟨y1, h3, h⟩ := bind_inv h
  obtain ⟨fit, h4, h⟩ := bind_inv h
  cases h
  have hlen : ∀ k, (∃ a, x[k]? = some a) → k < x.length := by
    rintro k ⟨a, ha⟩
    by_contra hk
    rw [List.getElem?_eq_none (by omega)] at ha
    cases ha
  have hlo := hlen lo ⟨x0, pyGet_inv h0⟩
  have hhi := hlen hi ⟨x1, pyGet_inv h1⟩
  have hl : (fit.zip (pySlice y lo hi)).length ≤ hi - lo := by
    rw [List.length_zip]
    refine le_trans (min_le_right _ _) ?_
    unfold pySlice
    rw [List.length_take]
    exact min_le_left _ _
  have := breakLoop_range multi (fit.zip (pySlice y lo hi)) 0 0 0
  omega

end generic

/-- State of the search after the deviations `P`. -/
def BreakInv (P : List ℝ) (brk : ℕ) (diff : ℝ) : Prop :=
  (∀ (j : ℕ) (x : ℝ), P[j]? = some x → x ≤ diff) ∧
    ((diff = 0 ∧ brk = 0) ∨ (0 < diff ∧ P[brk]? = some diff ∧ ∀ (j : ℕ) (x : ℝ), j < brk → P[j]? = some x → x < diff))

theorem breakLoop_spec (m : ℝ) (dev : ℝ × ℝ → ℝ) (hdev : ∀ p, dev p = if m = 0 then |p.2 - p.1| else m * (p.2 - p.1)) :
    ∀ (l : List (ℝ × ℝ)) (P : List ℝ) (brk : ℕ) (diff : ℝ), BreakInv P brk diff →
      ∃ d, BreakInv (P ++ l.map dev) (breakLoop m l P.length brk diff) d
  | [], P, brk, diff, h => ⟨diff, by simpa [breakLoop] using h⟩
  | (fit, y) :: l, P, brk, diff, h => by
    have e : P ++ ((fit, y) :: l).map dev = (P ++ [dev (fit, y)]) ++ l.map dev := by simp
    have el : P.length + 1 = (P ++ [dev (fit, y)]).length := by simp
    have hnn : 0 ≤ diff := by rcases h.2 with h | h <;> linarith [h.1]
    have hm : ∀ (j : ℕ) (x : ℝ), (P ++ [dev (fit, y)])[j]? = some x → x = dev (fit, y) ∨ (j < P.length ∧ P[j]? = some x) := by
      intro j x hj
      rcases lt_or_ge j P.length with hlt | hge
      · rw [List.getElem?_append_left hlt] at hj
        exact .inr ⟨hlt, hj⟩
      · rw [List.getElem?_append_right hge] at hj
        have := List.mem_of_getElem? hj
        exact .inl (by simpa using this)
    have hd : (if ((m == 0) = true) then nabs (y - fit) else m * (y - fit)) = dev (fit, y) := by
      rw [hdev]
      simp only [num_real, decide_eq_true_eq]
    simp only [breakLoop]
    rw [hd, e, el]
    split_ifs with hx
    · refine breakLoop_spec m dev hdev l _ P.length (dev (fit, y)) ⟨?_, .inr ⟨by linarith, by simp, ?_⟩⟩
      · intro j x hj
        rcases hm j x hj with h' | h'
        · exact h'.le
        · exact le_trans (h.1 j x h'.2) hx.le
      · intro j x hjl hj
        rw [List.getElem?_append_left hjl] at hj
        exact lt_of_le_of_lt (h.1 j x hj) hx
    · refine breakLoop_spec m dev hdev l _ brk diff ⟨?_, ?_⟩
      · intro j x hj
        rcases hm j x hj with h' | h'
        · rw [h']; exact not_lt.mp hx
        · exact h.1 j x h'.2
      · rcases h.2 with h' | h'
        · exact .inl h'
        · refine .inr ⟨h'.1, ?_, ?_⟩
          · have hb : brk < P.length := by
              by_contra hk
              have := h'.2.1
              rw [List.getElem?_eq_none (by omega)] at this
              cases this
            rw [List.getElem?_append_left hb]; exact h'.2.1
          · intro j x hjb hj
            have hb : brk < P.length := by
              by_contra hk
              have := h'.2.1
              rw [List.getElem?_eq_none (by omega)] at this
              cases this
            rw [List.getElem?_append_left (by omega)] at hj
            exact h'.2.2 j x hjb hj

theorem pySlice_arr {β : Type} (n lo hi : ℕ) (X : ℕ → β) (hhi : hi ≤ n) :
    pySlice (arr n X) lo hi = (List.range' lo (hi - lo)).map X := by
  apply List.ext_getElem?
  intro j
  rw [pySlice_getElem?, List.getElem?_map]
  unfold arr
  rw [List.getElem?_map]
  split_ifs with hj
  · rw [List.getElem?_range (by omega), List.getElem?_range' hj]
    simp
  · rw [List.getElem?_eq_none (by simpa using hj)]; rfl

theorem interpVal_pair (x0 x1 y0 y1 x : ℝ) (h0 : x0 ≤ x) (h1 : x < x1) :
    interpVal [x0, x1] [y0, y1] x = y0 + (y1 - y0) / (x1 - x0) * (x - x0) := by
  simp only [interpVal, List.zip_cons_cons, List.zip_nil_left, interpFrom, not_lt.mpr h0, h1, if_true, if_false]
  ring

/-- **C55** On a table with increasing angles `find_breakpoint` succeeds for all indices of the table and returns the first row of
the interval with the largest positive deviation from the straight line between its ends, or the lower end if no row deviates in
the sense asked for. -/
theorem findBreakpoint_best (n : ℕ) (X Y : ℕ → ℝ) (hX : ∀ i j : ℕ, i < j → j < n → X i < X j) (lo hi : ℕ) (hlo : lo < n)
    (hhi : hi < n) (m : ℝ) :
    ∃ i, findBreakpoint (arr n X) (arr n Y) lo hi m = .ok i ∧ BreakRow X Y lo hi m i := by
  set L := (List.range' lo (hi - lo)).map fun j => (interpVal [X lo, X hi] [Y lo, Y hi] (X j), Y j) with hL
  set dev : ℝ × ℝ → ℝ := fun p => if m = 0 then |p.2 - p.1| else m * (p.2 - p.1) with hdev
  have hok : findBreakpoint (arr n X) (arr n Y) lo hi m = .ok (breakLoop m L 0 0 0 + lo) := by
    unfold findBreakpoint
    rw [pyGet_ok (arr_getElem? n lo X hlo), pyGet_ok (arr_getElem? n hi X hhi), pyGet_ok (arr_getElem? n lo Y hlo),
      pyGet_ok (arr_getElem? n hi Y hhi)]
    simp only [bind, Except.bind]
    rw [npInterps_ok _ [X lo, X hi] [Y lo, Y hi] rfl (by simp), pySlice_arr n lo hi X hhi.le, pySlice_arr n lo hi Y hhi.le]
    simp only [pure, Except.pure, hL]
    rw [List.map_map, List.zip_map']
    rfl
  obtain ⟨d, hd⟩ := breakLoop_spec m dev (fun _ => rfl) L [] 0 0 ⟨by simp, .inl ⟨rfl, rfl⟩⟩
  rw [List.nil_append, List.length_nil] at hd
  set r := breakLoop m L 0 0 0 with hr
  have hget : ∀ j : ℕ, j < hi - lo → (L.map dev)[j]? = some (chordDev X Y lo hi m (lo + j)) := by
    intro j hj
    rw [hL, List.map_map, List.getElem?_map, List.getElem?_range' hj]
    simp only [Option.map_some, Function.comp, hdev, one_mul, chordDev]
    have h0 : X lo ≤ X (lo + j) := by
      rcases Nat.eq_zero_or_pos j with h | h
      · rw [h, Nat.add_zero]
      · exact (hX lo (lo + j) (by omega) (by omega)).le
    rw [interpVal_pair _ _ _ _ _ h0 (hX _ _ (by omega) hhi)]
  have hnone : ∀ j : ℕ, ¬ j < hi - lo → (L.map dev)[j]? = none := by
    intro j hj
    exact List.getElem?_eq_none (by simpa [hL] using hj)
  refine ⟨r + lo, hok, ?_, ?_, ?_⟩
  · rcases hd.2 with ⟨-, h⟩ | ⟨hpos, hb, -⟩
    · left; omega
    · right
      by_cases hlt : r < hi - lo
      · refine ⟨by omega, by omega, ?_⟩
        rw [hget r hlt] at hb
        rw [add_comm r lo, Option.some.inj hb]; exact hpos
      · rw [hnone r hlt] at hb; cases hb
  · intro j hj1 hj2
    obtain ⟨k, rfl⟩ : ∃ k, j = lo + k := ⟨j - lo, by omega⟩
    have := hd.1 k _ (hget k (by omega))
    rcases hd.2 with ⟨h0, -⟩ | ⟨hpos, hb, -⟩
    · rw [h0] at this
      exact le_trans this (le_max_left _ _)
    · by_cases hlt : r < hi - lo
      · rw [hget r hlt] at hb
        rw [add_comm r lo, Option.some.inj hb]
        exact le_trans this (le_max_right _ _)
      · rw [hnone r hlt] at hb; cases hb
  · intro j hj1 hj2
    obtain ⟨k, rfl⟩ : ∃ k, j = lo + k := ⟨j - lo, by omega⟩
    rcases hd.2 with ⟨-, h0⟩ | ⟨hpos, hb, hbelow⟩
    · omega
    · by_cases hlt : r < hi - lo
      · rw [hget r hlt] at hb
        rw [add_comm r lo, Option.some.inj hb]
        exact hbelow k _ (by omega) (hget k (by omega))
      · rw [hnone r hlt] at hb; cases hb

/-- The hypotheses are met by the square root curve at 0, 1, 4, 9: the row deviating most from the chord is the row at 1. -/
example : ∃ i, findBreakpoint (arr 4 fun i => (i : ℝ) ^ 2) (arr 4 fun i => (i : ℝ)) 0 3 1 = .ok i ∧ i = 1 := by
  obtain ⟨i, h1, h2, h3, h4⟩ := findBreakpoint_best 4 (fun i => (i : ℝ) ^ 2) (fun i => (i : ℝ))
    (fun i j hij _ => by
      have : (i:ℝ) < j := by exact_mod_cast hij
      have : (0:ℝ) ≤ i := by positivity
      nlinarith) 0 3 (by norm_num) (by norm_num) 1
  refine ⟨i, h1, ?_⟩
  have e : ∀ k : ℕ, chordDev (fun i => (i : ℝ) ^ 2) (fun i => (i : ℝ)) 0 3 1 k = k - (k:ℝ) ^ 2 / 3 := by
    intro k; simp only [chordDev]; norm_num; ring
  have h5 := h3 1 (by norm_num) (by norm_num)
  rw [e, e] at h5
  have hi : i < 3 := by rcases h2 with h | h <;> omega
  interval_cases i
  · norm_num at h5
  · rfl
  · have := h4 1 (by norm_num) (by norm_num)
    rw [e, e] at this
    norm_num at this

/-! ## `eval_unsteady` -/

theorem pyMax_spec (l : List ℝ) (m : ℝ) (h : pyMax l = .ok m) : ∀ x ∈ l, x ≤ m := by
  cases l with
  | nil => cases h
  | cons a l =>
    cases h
    have key : ∀ (l : List ℝ) (a : ℝ), a ≤ l.foldl nmax a ∧ ∀ x ∈ l, x ≤ l.foldl nmax a := by
      intro l
      induction l with
      | nil => intro a; simp
      | cons b l ih =>
        intro a
        obtain ⟨h1, h2⟩ := ih (nmax a b)
        rw [real_nmax] at h1 h2
        simp only [List.foldl_cons, real_nmax]
        refine ⟨le_trans (le_max_left _ _) h1, ?_⟩
        intro x hx
        rcases List.mem_cons.mp hx with rfl | hx
        · exact le_trans (le_max_right _ _) h1
        · exact h2 x hx
    intro x hx
    rcases List.mem_cons.mp hx with rfl | hx
    · exact (key l x).1
    · exact (key l a).2 x hx

theorem pyMax_mem (l : List ℝ) (m : ℝ) (h : pyMax l = .ok m) : m ∈ l := by
  cases l with
  | nil => cases h
  | cons a l =>
    cases h
    have key : ∀ (l : List ℝ) (a : ℝ), l.foldl nmax a ∈ a :: l := by
      intro l
      induction l with
      | nil => intro a; simp
      | cons b l ih =>
        intro a
        simp only [List.foldl_cons]
        rcases List.mem_cons.mp (ih (nmax a b)) with h | h
        · rw [h]
          unfold nmax
          split_ifs <;> simp
        · simp [h]
    exact key l a

theorem arr_getD (n j : ℕ) (X : ℕ → ℝ) (hj : j < n) : (arr n X).getD j 0 = X j := by
  rw [List.getD_eq_getElem?_getD, arr_getElem? n j X hj]; rfl

/-- The first difference bounds the largest gradient from below. -/
theorem maxGrad_first (n : ℕ) (Y : ℕ → ℝ) (hn : 2 ≤ n) (g : ℝ) (h : maxGrad (arr n Y) = .ok g) : |Y 1 - Y 0| ≤ g := by
  unfold maxGrad npGradient1 at h
  rw [arr_length, if_neg (by omega)] at h
  refine pyMax_spec _ _ h _ (List.mem_map.mpr ⟨Y 1 - Y 0, ?_, real_nabs _⟩)
  refine List.mem_of_getElem? (i := 0) ?_
  rw [arr_getElem? n 0 _ (by omega), if_pos rfl, arr_getD n 1 Y (by omega), arr_getD n 0 Y (by omega)]

/-- So does the last difference. -/
theorem maxGrad_last (n : ℕ) (Y : ℕ → ℝ) (hn : 2 ≤ n) (g : ℝ) (h : maxGrad (arr n Y) = .ok g) :
    |Y (n - 1) - Y (n - 2)| ≤ g := by
  unfold maxGrad npGradient1 at h
  rw [arr_length, if_neg (by omega)] at h
  refine pyMax_spec _ _ h _ (List.mem_map.mpr ⟨Y (n - 1) - Y (n - 2), ?_, real_nabs _⟩)
  refine List.mem_of_getElem? (i := n - 1) ?_
  rw [arr_getElem? n (n - 1) _ (by omega), if_neg (by omega), if_pos (by omega), arr_getD n (n - 1) Y (by omega),
    arr_getD n (n - 1 - 1) Y (by omega), show n - 1 - 1 = n - 2 by omega]

/-- If the largest gradient is not positive the curve is constant. -/
theorem maxGrad_flat (n : ℕ) (Y : ℕ → ℝ) (hn : 2 ≤ n) (g : ℝ) (h : maxGrad (arr n Y) = .ok g) (hg : g ≤ 0) :
    ∀ i : ℕ, i < n → Y i = Y 0 := by
  have h1 : Y 1 = Y 0 := by
    have := maxGrad_first n Y hn g h
    have := abs_nonneg (Y 1 - Y 0)
    have : |Y 1 - Y 0| = 0 := by linarith
    linarith [abs_eq_zero.mp this]
  have hstep : ∀ i : ℕ, 0 < i → i + 1 < n → Y (i + 1) = Y (i - 1) := by
    intro i hi hin
    unfold maxGrad npGradient1 at h
    rw [arr_length, if_neg (by omega)] at h
    have := pyMax_spec _ _ h |(Y (i + 1) - Y (i - 1)) / 2| (List.mem_map.mpr ⟨(Y (i + 1) - Y (i - 1)) / 2, ?_, real_nabs _⟩)
    · have h0 := abs_nonneg ((Y (i + 1) - Y (i - 1)) / 2)
      have : |(Y (i + 1) - Y (i - 1)) / 2| = 0 := by linarith
      linarith [abs_eq_zero.mp this]
    · refine List.mem_of_getElem? (i := i) ?_
      rw [arr_getElem? n i _ (by omega), if_neg (by omega), if_neg (by omega), arr_getD n (i + 1) Y (by omega),
        arr_getD n (i - 1) Y (by omega)]
      simp [num_real]
  intro i
  induction i using Nat.strong_induction_on with
  | _ i ih =>
    intro hi
    match i, hi with
    | 0, _ => rfl
    | 1, _ => exact h1
    | k + 2, hi =>
      rw [hstep (k + 1) (by omega) hi]
      exact ih k (by omega) (by omega)

theorem maxGrad_ok (n : ℕ) (Y : ℕ → ℝ) (hn : 2 ≤ n) : ∃ g, maxGrad (arr n Y) = .ok g := by
  unfold maxGrad npGradient1
  rw [arr_length, if_neg (by omega)]
  obtain ⟨m, rfl⟩ : ∃ m, n = m + 1 := ⟨n - 1, by omega⟩
  simp only [bind, Except.bind, arr_cons, List.map_cons, pyMax]
  exact ⟨_, rfl⟩

theorem mem_localMinima (n : ℕ) (Y : ℕ → ℝ) (lo hi : ℕ) (hhi : hi ≤ n) (hlt : lo < hi) (k : ℕ) :
    k ∈ localMinima (pySlice (arr n Y) lo hi) ↔ LocalMin Y lo hi (k + lo) := by
  rw [pySlice_arr n lo hi Y hhi]
  have hget : ∀ k : ℕ, k < hi - lo → ((List.range' lo (hi - lo)).map Y).getD k 0 = Y (lo + k) := by
    intro k hk
    rw [List.getD_eq_getElem?_getD, List.getElem?_map, List.getElem?_range' hk]
    simp
  set t := (List.range' lo (hi - lo)).map Y with ht
  have hlen : t.length = hi - lo := by simp [ht]
  have hmax : max t.length 1 = hi - lo := by rw [hlen]; omega
  unfold localMinima LocalMin
  rw [List.mem_filter, List.mem_range, hmax, hlen]
  simp only [decide_eq_true_eq]
  constructor
  · rintro ⟨hk, h3, h4⟩
    refine ⟨by omega, by omega, ?_, ?_⟩
    · rcases h3 with h3 | h3
      · left; omega
      · rcases Nat.eq_zero_or_pos k with h0 | h0
        · left; omega
        · right
          rw [hget k hk, hget (k - 1) (by omega)] at h3
          rw [show k + lo = lo + k by omega, show lo + k - 1 = lo + (k - 1) by omega]; exact h3
    · rcases h4 with h4 | h4
      · left; omega
      · by_cases h5 : k + 1 < hi - lo
        · right
          rw [hget k hk, hget (k + 1) h5] at h4
          rw [show k + lo = lo + k by omega, show lo + k + 1 = lo + (k + 1) by omega]; exact h4
        · left; omega
  · rintro ⟨-, hk, h3, h4⟩
    have hk' : k < hi - lo := by omega
    refine ⟨hk', ?_, ?_⟩
    · rcases h3 with h3 | h3
      · left; omega
      · rcases Nat.eq_zero_or_pos k with h0 | h0
        · left; exact h0
        · right
          rw [hget k hk', hget (k - 1) (by omega)]
          rw [show k + lo = lo + k by omega, show lo + k - 1 = lo + (k - 1) by omega] at h3; exact h3
    · rcases h4 with h4 | h4
      · left; omega
      · by_cases h5 : k + 1 < hi - lo
        · right
          rw [hget k hk', hget (k + 1) h5]
          rw [show k + lo = lo + k by omega, show lo + k + 1 = lo + (k + 1) by omega] at h4; exact h4
        · left; omega

theorem lastMin_spec (n : ℕ) (Y : ℕ → ℝ) (lo hi i : ℕ) (hhi : hi ≤ n) (h : lastMin (arr n Y) lo hi = .ok i) :
    LastLocalMin Y lo hi i := by
  unfold lastMin at h
  obtain ⟨r, h1, h2⟩ := bind_inv h
  cases h2
  have hmem : r ∈ localMinima (pySlice (arr n Y) lo hi) ∧ ∀ k ∈ localMinima (pySlice (arr n Y) lo hi), k ≤ r := by
    unfold pyLast at h1
    cases e : (localMinima (pySlice (arr n Y) lo hi)).getLast? with
    | none => rw [e] at h1; cases h1
    | some a =>
      rw [e] at h1; cases h1
      refine ⟨List.mem_of_getLast? e, ?_⟩
      intro k hk
      have hs : (localMinima (pySlice (arr n Y) lo hi)).Pairwise (· < ·) := (List.pairwise_lt_range).filter _
      obtain ⟨l', hl'⟩ := List.getLast?_eq_some_iff.mp e
      rw [hl'] at hk hs
      rcases List.mem_append.mp hk with hk | hk
      · exact ((List.pairwise_append.mp hs).2.2 k hk r (by simp)).le
      · exact (by simpa using hk : k = r).le
  by_cases hlt : lo < hi
  · left
    refine ⟨hlt, (mem_localMinima n Y lo hi hhi hlt r).mp hmem.1, ?_⟩
    intro j hj
    have h0 := hj.1
    have := hmem.2 (j - lo) ((mem_localMinima n Y lo hi hhi hlt (j - lo)).mpr (by rw [Nat.sub_add_cancel h0]; exact hj))
    omega
  · right
    refine ⟨by omega, ?_⟩
    have : r < max (pySlice (arr n Y) lo hi).length 1 := by
      have := hmem.1
      unfold localMinima at this
      exact List.mem_range.mp (List.mem_filter.mp this).1
    rw [pySlice_arr n lo hi Y hhi, List.length_map, List.length_range'] at this
    omega

theorem lastMin_ok (n : ℕ) (Y : ℕ → ℝ) (lo hi i : ℕ) (hhi : hi ≤ n) (h : LastLocalMin Y lo hi i) (hlt : lo < hi) :
    lastMin (arr n Y) lo hi = .ok i := by
  have hm : LocalMin Y lo hi i ∧ ∀ j, LocalMin Y lo hi j → j ≤ i := by
    rcases h with h | h
    · exact h.2
    · omega
  have hmem : i - lo ∈ localMinima (pySlice (arr n Y) lo hi) := by
    rw [mem_localMinima n Y lo hi hhi hlt, Nat.sub_add_cancel hm.1.1]
    exact hm.1
  have hex : ∃ r, lastMin (arr n Y) lo hi = .ok r := by
    unfold lastMin pyLast
    cases e : (localMinima (pySlice (arr n Y) lo hi)).getLast? with
    | none =>
      rw [List.getLast?_eq_none_iff] at e
      rw [e] at hmem
      simp at hmem
    | some a => exact ⟨_, rfl⟩
  obtain ⟨r, hr⟩ := hex
  rcases lastMin_spec n Y lo hi r hhi hr with h' | h'
  · rw [hr, le_antisymm (hm.2 r h'.2.1) (h'.2.2 i hm.1)]
  · omega

theorem cnCurve_arr (n : ℕ) (A L D : ℕ → ℝ) : cnCurve (arr n A) (arr n L) (arr n D) = arr n (normalRow A L D) := by
  unfold cnCurve arr
  rw [List.zip_map', List.zipWith_map]
  rw [List.zipWith_self]
  simp only [num_real]
  rfl

theorem arr_lt_of_get {n i : ℕ} {X : ℕ → ℝ} {a : ℝ} (h : (arr n X)[i]? = some a) : i < n ∧ a = X i := by
  by_cases hi : i < n
  · rw [arr_getElem? n i X hi] at h
    exact ⟨hi, (Option.some.inj h).symm⟩
  · rw [List.getElem?_eq_none (by rw [arr_length]; omega)] at h; cases h

theorem nearest_row {n : ℕ} {A : ℕ → ℝ} {x : ℝ} {i : ℕ} (h : nearest (arr n A) x = .ok i) :
    i < n ∧ NearestRow (arr n A) x i (A i) := by
  have hne : arr n A ≠ [] := by
    intro e; rw [e] at h; cases h
  obtain ⟨k, b, h1, h2⟩ := nearest_spec (arr n A) x hne
  rw [h1] at h
  cases h
  obtain ⟨h3, h4⟩ := arr_lt_of_get h2.1
  exact ⟨h3, h4 ▸ h2⟩

/-- `np.gradient` over rows `lo` to `hi` with increasing sample points: the slope at every row. -/
theorem npGradient_rows (n lo hi : ℕ) (X F : ℕ → ℝ) (hhi : hi ≤ n) (hX : ∀ i j : ℕ, i < j → j < n → X i < X j) (g : List ℝ)
    (h : npGradient (pySlice (arr n F) lo hi) (pySlice (arr n X) lo hi) = .ok g) :
    lo + 2 ≤ hi ∧ ∃ S : ℕ → ℝ, g = arr (hi - lo) (fun i => S (lo + i)) ∧ ∀ i, lo ≤ i → i < hi → RowSlope X F lo hi i (S i) := by
  unfold npGradient at h
  rw [pySlice_arr n lo hi F hhi, pySlice_arr n lo hi X hhi] at h
  have hget : ∀ (Y : ℕ → ℝ) (k : ℕ), k < hi - lo → ((List.range' lo (hi - lo)).map Y).getD k 0 = Y (lo + k) := by
    intro Y k hk
    rw [List.getD_eq_getElem?_getD, List.getElem?_map, List.getElem?_range' hk]
    simp
  simp only [List.length_map, List.length_range'] at h
  have h2 : lo + 2 ≤ hi := by
    by_contra hc
    rw [if_pos (by omega)] at h
    cases h
  rw [if_neg (by omega)] at h
  cases h
  refine ⟨h2, fun i => if i = lo then (F (lo + 1) - F lo) / (X (lo + 1) - X lo)
    else if i + 1 = hi then (F i - F (i - 1)) / (X i - X (i - 1))
    else -(X (i + 1) - X i) / ((X i - X (i - 1)) * (X i - X (i - 1) + (X (i + 1) - X i))) * F (i - 1)
      + (X (i + 1) - X i - (X i - X (i - 1))) / ((X i - X (i - 1)) * (X (i + 1) - X i)) * F i
      + (X i - X (i - 1)) / ((X (i + 1) - X i) * (X i - X (i - 1) + (X (i + 1) - X i))) * F (i + 1), ?_, ?_⟩
  · unfold arr
    refine List.map_congr_left fun k hk => ?_
    have hk' := List.mem_range.mp hk
    beta_reduce
    by_cases h0 : k = 0
    · subst h0
      rw [if_pos rfl, if_pos (by omega), hget F 0 (by omega), hget F 1 (by omega), hget X 0 (by omega), hget X 1 (by omega)]
      rfl
    · rw [if_neg h0, if_neg (by omega : ¬ lo + k = lo)]
      have e1 : lo + k - 1 = lo + (k - 1) := by omega
      by_cases h1 : k + 1 = hi - lo
      · rw [if_pos h1, if_pos (by omega), hget F k hk', hget F (k - 1) (by omega), hget X k hk', hget X (k - 1) (by omega), e1]
      · rw [if_neg h1, if_neg (by omega), hget F k hk', hget F (k - 1) (by omega), hget X k hk', hget X (k - 1) (by omega),
          hget F (k + 1) (by omega), hget X (k + 1) (by omega), e1]
        rfl
  · intro i hl hh
    by_cases h0 : i = lo
    · subst h0
      left
      have := hX i (i + 1) (by omega) (by omega)
      beta_reduce
      rw [if_pos rfl]
      exact ⟨rfl, by rw [div_mul_cancel₀ _ (by linarith)]⟩
    · right
      have hp := hX (i - 1) i (by omega) (by omega)
      simp only [h0, if_false]
      by_cases h1 : i + 1 = hi
      · left
        rw [if_pos h1]
        exact ⟨by omega, h1, by rw [div_mul_cancel₀ _ (by linarith)]⟩
      · right
        have hq := hX i (i + 1) (by omega) (by omega)
        rw [if_neg h1]
        refine ⟨by omega, by omega, ?_⟩
        obtain ⟨d1, hd1⟩ : ∃ d, d = X i - X (i - 1) := ⟨_, rfl⟩
        obtain ⟨d2, hd2⟩ : ∃ d, d = X (i + 1) - X i := ⟨_, rfl⟩
        have p1 : 0 < d1 := by linarith
        have p2 : 0 < d2 := by linarith
        have p3 : d1 + d2 ≠ 0 := by linarith
        rw [← hd1, ← hd2, show X (i - 1) - X i = -d1 by linarith]
        refine ⟨(F (i - 1) * d2 + F (i + 1) * d1 - F i * (d1 + d2)) / (d1 * d2 * (d1 + d2)), ?_, ?_⟩
        · field_simp
          ring
        · field_simp
          ring

theorem largestSlope_of (n lo hi : ℕ) (X F : ℕ → ℝ) (hhi : hi ≤ n) (hX : ∀ i j : ℕ, i < j → j < n → X i < X j) (g : List ℝ) (m : ℝ)
    (h : npGradient (pySlice (arr n F) lo hi) (pySlice (arr n X) lo hi) = .ok g) (hm : pyMax g = .ok m) :
    LargestSlope X F lo hi m := by
  obtain ⟨-, S, rfl, hS⟩ := npGradient_rows n lo hi X F hhi hX g h
  constructor
  · obtain ⟨k, hk, rfl⟩ := List.mem_map.mp (pyMax_mem _ _ hm)
    have := List.mem_range.mp hk
    exact ⟨lo + k, by omega, by omega, hS _ (by omega) (by omega)⟩
  · intro i hl hh
    refine ⟨S i, hS i hl hh, pyMax_spec _ _ hm _ (List.mem_map.mpr ⟨i - lo, List.mem_range.mpr (by omega), ?_⟩)⟩
    rw [show lo + (i - lo) = i by omega]

/-- **C55** What `eval_unsteady` reports, for tables with increasing angles.  Let `i0` be the row nearest to the zero-lift angle.
If the moment curve is flat, all four entries are zero.  Otherwise, with `hi` the last local minimum of the moment between the
rows nearest to -30 and to 35 degrees above row `i0`: `Cn1` is the normal force at the row where the moment exceeds its chord
between `i0` and `hi` the most, `Cn2` at the row where it deviates the most below `i0`, and `alpha1` is the angle of the row where
the drag falls below its chord the most; `Cnalpha` is the largest slope per radian of the normal force between `i0` and the row of
`Cn1`. -/
theorem evalUnsteady_rows (n : ℕ) (A L D M : ℕ → ℝ) (hA : ∀ i j : ℕ, i < j → j < n → A i < A j) (u : Unsteady ℝ)
    (h : evalUnsteady (arr n A) (arr n L) (arr n D) (arr n M) = .ok u) :
    u.alpha2 = -u.alpha1 ∧ ∃ i0 : ℕ, NearestRow (arr n A) u.alpha0 i0 (A i0) ∧
    ((u.alpha1 = 0 ∧ u.Cn1 = 0 ∧ u.Cn2 = 0 ∧ u.Cnalpha = 0 ∧ |M 1 - M 0| ≤ 1 / 10 ^ 10) ∨
      ∃ lo hi1 hi i1 lo2 i2 lo3 i3 : ℕ,
        NearestRow (arr n A) (-30) lo (A lo) ∧ NearestRow (arr n A) (A i0 + 35) hi1 (A hi1) ∧ LastLocalMin M lo hi1 hi ∧
        BreakRow A M i0 hi 1 i1 ∧ u.Cn1 = normalRow A L D i1 ∧
        NearestRow (arr n A) ((A i0 + A i1) / 2 - 30) lo2 (A lo2) ∧ BreakRow A M lo2 i0 0 i2 ∧ u.Cn2 = normalRow A L D i2 ∧
        NearestRow (arr n A) 0 lo3 (A lo3) ∧ BreakRow A D lo3 i1 (-1) i3 ∧ u.alpha1 = A i3 ∧ i0 + 2 ≤ i1 ∧
        LargestSlope (fun i => A i * (Real.pi / 180)) (normalRow A L D) i0 i1 u.Cnalpha) := by
  unfold evalUnsteady at h
  obtain ⟨lo, h0, h⟩ := bind_inv h
  obtain ⟨hi, h1, h⟩ := bind_inv h
  obtain ⟨⟨alpha0, Cd0, Cm0⟩, h2, h⟩ := bind_inv h
  obtain ⟨i0, h3, h⟩ := bind_inv h
  obtain ⟨g, h4, h⟩ := bind_inv h
  simp only [num_real] at h0 h1
  obtain ⟨hi0, hn0⟩ := nearest_row h3
  obtain ⟨hlo, hnlo⟩ := nearest_row h0
  have hn2 : 2 ≤ n := by
    unfold maxGrad npGradient1 at h4
    by_contra hlt
    rw [arr_length, if_pos (by omega)] at h4
    cases h4
  by_cases hg : (Num.nat 1 / Num.nat (10 ^ 10) : ℝ) < g
  · rw [if_pos hg] at h
    obtain ⟨a0, h5, h⟩ := bind_inv h
    obtain ⟨hi1, h6, h⟩ := bind_inv h
    obtain ⟨hi2, h7, h⟩ := bind_inv h
    obtain ⟨iCn1, h8, h⟩ := bind_inv h
    obtain ⟨Cn1, h9, h⟩ := bind_inv h
    obtain ⟨a1, h10, h⟩ := bind_inv h
    obtain ⟨lo2, h11, h⟩ := bind_inv h
    obtain ⟨_, h12, h⟩ := bind_inv h
    obtain ⟨iCn2, h13, h⟩ := bind_inv h
    obtain ⟨Cn2, h14, h⟩ := bind_inv h
    obtain ⟨grad, h15, h⟩ := bind_inv h
    obtain ⟨Cna, h16, h⟩ := bind_inv h
    obtain ⟨lo3, h17, h⟩ := bind_inv h
    obtain ⟨iA1, h18, h⟩ := bind_inv h
    obtain ⟨alpha1, h19, h⟩ := bind_inv h
    cases h
    rw [cnCurve_arr] at h9 h14 h15
    obtain ⟨-, rfl⟩ := arr_lt_of_get (pyGet_inv h5)
    obtain ⟨hiC, rfl⟩ := arr_lt_of_get (pyGet_inv h10)
    obtain ⟨-, e9⟩ := arr_lt_of_get (pyGet_inv h9)
    obtain ⟨-, e14⟩ := arr_lt_of_get (pyGet_inv h14)
    obtain ⟨-, e19⟩ := arr_lt_of_get (pyGet_inv h19)
    simp only [num_real] at h6 h11
    obtain ⟨hhi1, hn6⟩ := nearest_row h6
    obtain ⟨hlo2, hn11⟩ := nearest_row h11
    obtain ⟨hlo3, hn17⟩ := nearest_row h17
    have hr8 := findBreakpoint_range _ _ _ _ _ _ h8
    rw [arr_length] at hr8
    obtain ⟨i, ei, bi⟩ := findBreakpoint_best n A M hA i0 hi2 hi0 hr8.2.2.2.2 1
    rw [ei] at h8; cases h8
    obtain ⟨i, ei, bi2⟩ := findBreakpoint_best n A M hA lo2 i0 hlo2 hi0 0
    rw [ei] at h13; cases h13
    obtain ⟨i, ei, bi3⟩ := findBreakpoint_best n A D hA lo3 iCn1 hlo3 hiC (-1)
    rw [ei] at h18; cases h18
    refine ⟨by simp, i0, hn0, .inr ⟨lo, hi1, hi2, iCn1, lo2, iCn2, lo3, iA1, by simpa using hnlo, by simpa using hn6,
      lastMin_spec n M lo hi1 hi2 hhi1.le h7, bi, e9, by simpa using hn11, bi2, e14, hn17, bi3, e19, ?_⟩⟩
    rw [show (arr n A).map deg2rad = arr n (fun i => A i * (Real.pi / 180)) by
      unfold arr
      rw [List.map_map]
      exact List.map_congr_left fun i _ => by simp [real_deg2rad]] at h15
    have hX : ∀ i j : ℕ, i < j → j < n → A i * (Real.pi / 180) < A j * (Real.pi / 180) := fun i j hij hj =>
      mul_lt_mul_of_pos_right (hA i j hij hj) (by positivity)
    exact ⟨(npGradient_rows n _ _ _ _ hiC.le hX _ h15).1, largestSlope_of n _ _ _ _ hiC.le hX _ _ h15 h16⟩
  · rw [if_neg hg] at h
    cases h
    refine ⟨by simp, i0, hn0, .inl ⟨rfl, rfl, rfl, rfl, ?_⟩⟩
    have := maxGrad_first n M hn2 g h4
    simp only [num_real] at hg
    push_cast at hg
    linarith

/-- **C78** A moment curve linear in the angle makes `eval_unsteady` fail: no row exceeds the chord, the break point is the
zero-lift row itself and the lift slope is asked of an empty slice. -/
theorem evalUnsteady_linear_moment (n : ℕ) (A L D : ℕ → ℝ) (hA : ∀ i j : ℕ, i < j → j < n → A i < A j) (c d : ℝ)
    (hd : 1 / 10 ^ 10 < |d * (A 1 - A 0)|) (u : Unsteady ℝ) :
    evalUnsteady (arr n A) (arr n L) (arr n D) (arr n fun i => c + d * A i) ≠ .ok u := by
  intro h
  obtain ⟨-, i0, -, hcase⟩ := evalUnsteady_rows n A L D _ hA u h
  rcases hcase with ⟨-, -, -, -, hflat⟩ | ⟨lo, hi1, hi, i1, lo2, i2, lo3, i3, hlo, hhi1, hmin, hb, -, -, -, -, -, -, -, h2, -⟩
  · rw [show c + d * A 1 - (c + d * A 0) = d * (A 1 - A 0) by ring] at hflat
    linarith
  · rcases hb.1 with h3 | ⟨h3, h4, h5⟩
    · omega
    · have hne : A hi - A i0 ≠ 0 := by
        have hlt : hi < n := by
          have e1 := hlo.lt
          have e2 := hhi1.lt
          rw [arr_length] at e1 e2
          rcases hmin with ⟨-, hm, -⟩ | ⟨-, hm⟩
          · exact lt_trans hm.2.1 e2
          · omega
        linarith [hA i0 hi (by omega) hlt]
      have : chordDev A (fun i => c + d * A i) i0 hi 1 i1 = 0 := by
        simp only [chordDev, one_ne_zero, if_false]
        field_simp
        ring
      linarith

/-- **C78** So it is false that every table with increasing angles has unsteady parameters: lift, drag and moment at -90, -45,
0, 45 and 90 degrees with a moment falling linearly are refused. -/
theorem evalUnsteady_total_false : ¬ ∀ (n : ℕ) (A L D M : ℕ → ℝ), 2 ≤ n → (∀ i j : ℕ, i < j → j < n → A i < A j) →
    ∃ u, evalUnsteady (arr n A) (arr n L) (arr n D) (arr n M) = .ok u := by
  intro h
  have hA : ∀ i j : ℕ, i < j → j < 5 → (45 * (i:ℝ) - 90) < 45 * (j:ℝ) - 90 := by
    intro i j hij _
    have : (i:ℝ) < j := by exact_mod_cast hij
    linarith
  obtain ⟨u, hu⟩ := h 5 (fun i => 45 * (i:ℝ) - 90) (fun i => (i:ℝ) - 2) (fun _ => 1 / 100)
    (fun i => 0 + -(1 / 1000) * (45 * (i:ℝ) - 90)) (by norm_num) hA
  exact evalUnsteady_linear_moment 5 (fun i => 45 * (i:ℝ) - 90) _ _ hA 0 (-(1 / 1000)) (by norm_num [abs_of_neg]) u hu

theorem nearest_ok (n : ℕ) (A : ℕ → ℝ) (hn : 0 < n) (x : ℝ) : ∃ i : ℕ, i < n ∧ nearest (arr n A) x = .ok i := by
  obtain ⟨k, b, h1, h2⟩ := nearest_spec (arr n A) x (by
    intro e
    have := congrArg List.length e
    rw [arr_length] at this
    simp at this; omega)
  have := h2.lt
  rw [arr_length] at this
  exact ⟨k, this, h1⟩

theorem npInterp_ok_of_ne (x : ℝ) (l : List (ℝ × ℝ)) (h : l ≠ []) : ∃ y, npInterp x l = .ok y := by
  unfold npInterp
  simp only [List.length_eq_zero_iff, if_neg h]
  split_ifs <;> exact ⟨_, rfl⟩

theorem maxGrad_const (n : ℕ) (c g : ℝ) (hg : maxGrad (arr n fun _ => c) = .ok g) : g ≤ 0 := by
  unfold maxGrad npGradient1 at hg
  rw [arr_length] at hg
  by_cases hn : n < 2
  · rw [if_pos hn] at hg
    cases hg
  rw [if_neg hn] at hg
  have hmem : ∀ x ∈ (arr n fun i => if i = 0 then (arr n fun _ => c).getD 1 0 - (arr n fun _ => c).getD 0 0
      else if i + 1 = n then (arr n fun _ => c).getD i 0 - (arr n fun _ => c).getD (i - 1) 0
      else ((arr n fun _ => c).getD (i + 1) 0 - (arr n fun _ => c).getD (i - 1) 0) / Num.nat 2 : List ℝ), x = 0 := by
    intro x hx
    obtain ⟨i, hi', rfl⟩ := List.mem_map.mp hx
    have := List.mem_range.mp hi'
    split_ifs
    · rw [arr_getD n 1 _ (by omega), arr_getD n 0 _ (by omega), sub_self]
    · rw [arr_getD n i _ (by omega), arr_getD n (i - 1) _ (by omega), sub_self]
    · rw [arr_getD n (i + 1) _ (by omega), arr_getD n (i - 1) _ (by omega), sub_self, zero_div]
  obtain ⟨x, hx, rfl⟩ := List.mem_map.mp (pyMax_mem _ _ hg)
  rw [hmem x hx, real_nabs, abs_zero]

/-- **C78** With a constant moment curve and different rows nearest to -30 and 30 degrees the parameters are computed. -/
theorem evalUnsteady_total_partial (n : ℕ) (A L D : ℕ → ℝ) (c : ℝ) (hn : 2 ≤ n) (lo hi : ℕ)
    (hlo : NearestRow (arr n A) (-30) lo (A lo)) (hhi : NearestRow (arr n A) 30 hi (A hi)) (hlt : lo < hi) :
    ∃ u, evalUnsteady (arr n A) (arr n L) (arr n D) (arr n fun _ => c) = .ok u := by
  have hhn := hhi.lt
  rw [arr_length] at hhn
  have hz : ∃ z, zeroLift (arr n A) (arr n L) (arr n D) (arr n fun _ => c) lo hi = .ok z := by
    unfold zeroLift
    obtain ⟨g, hg⟩ := maxGrad_ok n L hn
    rw [hg]
    simp only [bind, Except.bind]
    have hne : ∀ Y : ℕ → ℝ, (pySlice (arr n L) lo hi).zip (pySlice (arr n Y) lo hi) ≠ [] := by
      intro Y e
      have := congrArg List.length e
      rw [pySlice_arr n lo hi L hhn.le, pySlice_arr n lo hi Y hhn.le] at this
      simp at this
      omega
    split_ifs
    · obtain ⟨y1, e1⟩ := npInterp_ok_of_ne 0 _ (hne A)
      obtain ⟨y2, e2⟩ := npInterp_ok_of_ne 0 _ (hne D)
      obtain ⟨y3, e3⟩ := npInterp_ok_of_ne 0 _ (hne fun _ => c)
      rw [e1, e2, e3]
      exact ⟨_, rfl⟩
    · obtain ⟨i, hi1, hi2⟩ := nearest_ok n A (by omega) 0
      rw [hi2]
      simp only [pyGet_ok (arr_getElem? n i D hi1)]
      exact ⟨_, rfl⟩
  obtain ⟨⟨z1, z2, z3⟩, hz⟩ := hz
  obtain ⟨i0, hi0, e0⟩ := nearest_ok n A (by omega) z1
  obtain ⟨g, hg⟩ := maxGrad_ok n (fun _ => c) hn
  have hg0 : g ≤ 0 := maxGrad_const n c g hg
  unfold evalUnsteady
  rw [nearest_of (by simpa [num_real] using hlo), nearest_of (by simpa [num_real] using hhi)]
  simp only [bind, Except.bind, hz, e0, hg, num_real]
  rw [if_neg (by push_cast; linarith [show (0:ℝ) < 1 / 10 ^ 10 by norm_num])]
  exact ⟨_, rfl⟩

/-! ## Zero lift -/

theorem zip_slices (n lo hi : ℕ) (hhi : hi ≤ n) (L Y : ℕ → ℝ) :
    (pySlice (arr n L) lo hi).zip (pySlice (arr n Y) lo hi) = arr (hi - lo) fun i => (L (lo + i), Y (lo + i)) := by
  rw [pySlice_arr n lo hi L hhi, pySlice_arr n lo hi Y hhi, List.zip_map', List.range'_eq_map_range, List.map_map]
  rfl

/-- `np.interp` at 0 over a column that changes sign: a segment (or the last row) where the column passes through zero from
below, with the same fraction for every second column. -/
theorem interp_zero (n lo hi : ℕ) (L : ℕ → ℝ) (hhi : hi ≤ n) (h0 : L lo ≤ 0) (h1 : 0 ≤ L (hi - 1)) (hlt : lo < hi) :
    ∃ (k : ℕ) (t : ℝ), lo ≤ k ∧ (k + 1 < hi ∧ 0 < L (k + 1) ∨ (k + 1 = hi ∧ t = 0)) ∧ 0 ≤ t ∧ t ≤ 1 ∧ L k ≤ 0 ∧
      L k + t * (L (k + 1) - L k) = 0 ∧
      ∀ Y : ℕ → ℝ, npInterp 0 ((pySlice (arr n L) lo hi).zip (pySlice (arr n Y) lo hi)) = .ok (Y k + t * (Y (k + 1) - Y k)) := by
  obtain ⟨k, t, a, b, c, d, e, f⟩ := npInterp_arr (hi - lo) (by omega) (fun i => L (lo + i)) 0 (by simpa using h0)
    (by rw [show lo + (hi - lo - 1) = hi - 1 by omega]; exact h1)
  simp only [← add_assoc] at a e f
  refine ⟨lo + k, t, by omega, ?_, b, c, d, e, fun Y => ?_⟩
  · rcases a with ⟨a, a'⟩ | ⟨a, a'⟩
    · exact .inl ⟨by omega, a'⟩
    · exact .inr ⟨by omega, a'⟩
  · rw [zip_slices n lo hi hhi]
    exact f fun i => Y (lo + i)

/-- The zero-lift values of `eval_unsteady` are those of `zeroLift` on the rows nearest to -30 and 30 degrees. -/
theorem evalUnsteady_zeroLift (n : ℕ) (A L D M : ℕ → ℝ) (u : Unsteady ℝ)
    (h : evalUnsteady (arr n A) (arr n L) (arr n D) (arr n M) = .ok u) (lo hi : ℕ)
    (hlo : NearestRow (arr n A) (-30) lo (A lo)) (hhi : NearestRow (arr n A) 30 hi (A hi)) :
    zeroLift (arr n A) (arr n L) (arr n D) (arr n M) lo hi = .ok (u.alpha0, u.Cd0, u.Cm0) := by
  unfold evalUnsteady at h
  obtain ⟨lo', h0, h⟩ := bind_inv h
  obtain ⟨hi', h1, h⟩ := bind_inv h
  rw [nearest_of (by simpa [num_real] using hlo)] at h0
  rw [nearest_of (by simpa [num_real] using hhi)] at h1
  cases h0
  cases h1
  obtain ⟨⟨alpha0, Cd0, Cm0⟩, h2, h⟩ := bind_inv h
  rw [h2]
  obtain ⟨i0, h3, h⟩ := bind_inv h
  obtain ⟨g, h4, h⟩ := bind_inv h
  by_cases hg : (Num.nat 1 / Num.nat (10 ^ 10) : ℝ) < g
  · rw [if_pos hg] at h
    obtain ⟨_, -, h⟩ := bind_inv h
    obtain ⟨_, -, h⟩ := bind_inv h
    obtain ⟨_, -, h⟩ := bind_inv h
    obtain ⟨_, -, h⟩ := bind_inv h
    obtain ⟨_, -, h⟩ := bind_inv h
    obtain ⟨_, -, h⟩ := bind_inv h
    obtain ⟨_, -, h⟩ := bind_inv h
    obtain ⟨_, -, h⟩ := bind_inv h
    obtain ⟨_, -, h⟩ := bind_inv h
    obtain ⟨_, -, h⟩ := bind_inv h
    obtain ⟨_, -, h⟩ := bind_inv h
    obtain ⟨_, -, h⟩ := bind_inv h
    obtain ⟨_, -, h⟩ := bind_inv h
    obtain ⟨_, -, h⟩ := bind_inv h
    obtain ⟨_, -, h⟩ := bind_inv h
    cases h
    rfl
  · rw [if_neg hg] at h
    cases h
    rfl

/-- `zeroLift` for a lift curve that is not constant. -/
theorem zeroLift_curve (n : ℕ) (A L D M : ℕ → ℝ) (hn : 2 ≤ n) (lo hi : ℕ) (hne : ∃ i j : ℕ, i < n ∧ j < n ∧ L i ≠ L j) :
    zeroLift (arr n A) (arr n L) (arr n D) (arr n M) lo hi = (do
      return (← npInterp 0 ((pySlice (arr n L) lo hi).zip (pySlice (arr n A) lo hi)),
        ← npInterp 0 ((pySlice (arr n L) lo hi).zip (pySlice (arr n D) lo hi)),
        ← npInterp 0 ((pySlice (arr n L) lo hi).zip (pySlice (arr n M) lo hi)))) := by
  unfold zeroLift
  obtain ⟨g, hg⟩ := maxGrad_ok n L hn
  rw [hg]
  simp only [bind, Except.bind]
  rw [if_pos]
  by_contra hg0
  have hflat := maxGrad_flat n L hn g hg (not_lt.mp hg0)
  obtain ⟨i, j, hi, hj, hij⟩ := hne
  exact hij (by rw [hflat i hi, hflat j hj])

/-- **C77** If the lift is not positive in the row nearest to -30 degrees and not negative in the last row before the one nearest
to 30 degrees, the reported `alpha0` is an angle between these rows where the piecewise linear lift curve passes through zero from
below, and `Cd0`, `Cm0` are the drag and moment interpolated at that angle.  The lift need not increase between the rows. -/
theorem evalUnsteady_zero_lift (n : ℕ) (A L D M : ℕ → ℝ) (u : Unsteady ℝ)
    (h : evalUnsteady (arr n A) (arr n L) (arr n D) (arr n M) = .ok u) (lo hi : ℕ)
    (hlo : NearestRow (arr n A) (-30) lo (A lo)) (hhi : NearestRow (arr n A) 30 hi (A hi)) (hlt : lo < hi)
    (hne : ∃ i j : ℕ, i < n ∧ j < n ∧ L i ≠ L j) (h0 : L lo ≤ 0) (h1 : 0 ≤ L (hi - 1)) :
    ∃ (k : ℕ) (t : ℝ), lo ≤ k ∧ (k + 1 < hi ∧ 0 < L (k + 1) ∨ (k + 1 = hi ∧ t = 0)) ∧ 0 ≤ t ∧ t ≤ 1 ∧ L k ≤ 0 ∧
      L k + t * (L (k + 1) - L k) = 0 ∧ u.alpha0 = A k + t * (A (k + 1) - A k) ∧
      u.Cd0 = D k + t * (D (k + 1) - D k) ∧ u.Cm0 = M k + t * (M (k + 1) - M k) := by
  have hhn := hhi.lt
  rw [arr_length] at hhn
  obtain ⟨k, t, hk1, hk2, ht0, ht1, hk, hkt, hY⟩ := interp_zero n lo hi L hhn.le h0 h1 hlt
  have hz := evalUnsteady_zeroLift n A L D M u h lo hi hlo hhi
  rw [zeroLift_curve n A L D M (by omega) lo hi hne, hY A, hY D, hY M] at hz
  obtain ⟨e1, e2, e3⟩ : _ ∧ _ ∧ _ := by simpa [pure, Except.pure, bind, Except.bind] using hz
  exact ⟨k, t, hk1, hk2, ht0, ht1, hk, hkt, e1.symm, e2.symm, e3.symm⟩

/-- **C77** If the lift changes sign only once between those rows, `alpha0` is the only zero of the lift curve there: any zero of
a segment with positive lift at its end is `alpha0`. -/
theorem evalUnsteady_zero_lift_unique (n : ℕ) (A L D M : ℕ → ℝ) (u : Unsteady ℝ)
    (h : evalUnsteady (arr n A) (arr n L) (arr n D) (arr n M) = .ok u) (lo hi : ℕ)
    (hlo : NearestRow (arr n A) (-30) lo (A lo)) (hhi : NearestRow (arr n A) 30 hi (A hi))
    (k : ℕ) (t : ℝ) (hk : lo ≤ k) (hk1 : k + 1 < hi) (hneg : ∀ i : ℕ, lo ≤ i → i ≤ k → L i ≤ 0) (hpos : ∀ i : ℕ, k < i → i < hi → 0 < L i)
    (ht : L k + t * (L (k + 1) - L k) = 0) :
    u.alpha0 = A k + t * (A (k + 1) - A k) ∧ u.Cd0 = D k + t * (D (k + 1) - D k) ∧ u.Cm0 = M k + t * (M (k + 1) - M k) := by
  have hhn := hhi.lt
  rw [arr_length] at hhn
  have hk' := hneg k hk le_rfl
  have hk1' := hpos (k + 1) (by omega) hk1
  obtain ⟨j, s, h1, h2, -, -, h5, h6, h7⟩ := evalUnsteady_zero_lift n A L D M u h lo hi hlo hhi (by omega)
    ⟨k, k + 1, by omega, by omega, by linarith⟩ (hneg lo le_rfl hk) (hpos (hi - 1) (by omega) (by omega)).le
  obtain rfl : j = k := by
    have hj : j ≤ k := by
      by_contra hj
      exact absurd (hpos j (by omega) (by omega)) (not_lt.mpr h5)
    rcases h2 with ⟨a, b⟩ | ⟨a, -⟩
    · by_contra hjk
      exact absurd (hneg (j + 1) (by omega) (by omega)) (not_le.mpr b)
    · omega
  have : s = t := mul_right_cancel₀ (show L (j + 1) - L j ≠ 0 by linarith) (by linarith)
  rw [← this]
  exact h7

/-- **C77** Without a zero of the lift between those rows the reported values are those of an end row: of the last row if the lift
is negative there, otherwise of the first row if the lift is positive there. -/
theorem evalUnsteady_no_zero_lift (n : ℕ) (A L D M : ℕ → ℝ) (u : Unsteady ℝ)
    (h : evalUnsteady (arr n A) (arr n L) (arr n D) (arr n M) = .ok u) (lo hi : ℕ)
    (hlo : NearestRow (arr n A) (-30) lo (A lo)) (hhi : NearestRow (arr n A) 30 hi (A hi)) (hlt : lo < hi)
    (hne : ∃ i j : ℕ, i < n ∧ j < n ∧ L i ≠ L j) :
    (L (hi - 1) < 0 → u.alpha0 = A (hi - 1) ∧ u.Cd0 = D (hi - 1) ∧ u.Cm0 = M (hi - 1)) ∧
    (0 < L lo → 0 ≤ L (hi - 1) → u.alpha0 = A lo ∧ u.Cd0 = D lo ∧ u.Cm0 = M lo) := by
  have hhn := hhi.lt
  rw [arr_length] at hhn
  have hz := evalUnsteady_zeroLift n A L D M u h lo hi hlo hhi
  rw [zeroLift_curve n A L D M (by omega) lo hi hne] at hz
  simp only [zip_slices n lo hi hhn.le] at hz
  have e : lo + (hi - lo - 1) = hi - 1 := by omega
  constructor
  · intro h1
    have key : ∀ Y : ℕ → ℝ, npInterp 0 (arr (hi - lo) fun i => (L (lo + i), Y (lo + i))) = .ok (Y (hi - 1)) := by
      intro Y
      rw [npInterp_high (hi - lo) (by omega) (fun i => L (lo + i)) (fun i => Y (lo + i)) 0 (by rw [e]; exact h1), e]
    rw [key A, key D, key M] at hz
    obtain ⟨e1, e2, e3⟩ : _ ∧ _ ∧ _ := by simpa [pure, Except.pure, bind, Except.bind] using hz
    exact ⟨e1.symm, e2.symm, e3.symm⟩
  · intro h0 h1
    have key : ∀ Y : ℕ → ℝ, npInterp 0 (arr (hi - lo) fun i => (L (lo + i), Y (lo + i))) = .ok (Y lo) := by
      intro Y
      rw [npInterp_low (hi - lo) (by omega) (fun i => L (lo + i)) (fun i => Y (lo + i)) 0 (by simpa using h0) (by rw [e]; exact h1)]
      rfl
    rw [key A, key D, key M] at hz
    obtain ⟨e1, e2, e3⟩ : _ ∧ _ ∧ _ := by simpa [pure, Except.pure, bind, Except.bind] using hz
    exact ⟨e1.symm, e2.symm, e3.symm⟩

/-- **C77** A constant lift curve (cylinder): zero angle and moment, and the drag of the row nearest to zero degrees. -/
theorem evalUnsteady_constant_lift (n : ℕ) (A D M : ℕ → ℝ) (l : ℝ) (u : Unsteady ℝ)
    (h : evalUnsteady (arr n A) (arr n fun _ => l) (arr n D) (arr n M) = .ok u) (lo hi i : ℕ)
    (hlo : NearestRow (arr n A) (-30) lo (A lo)) (hhi : NearestRow (arr n A) 30 hi (A hi)) (hi0 : NearestRow (arr n A) 0 i (A i)) :
    u.alpha0 = 0 ∧ u.Cd0 = D i ∧ u.Cm0 = 0 := by
  have hz := evalUnsteady_zeroLift n A _ D M u h lo hi hlo hhi
  unfold zeroLift at hz
  obtain ⟨g, hg, hz⟩ := bind_inv hz
  have hi1 := hi0.lt
  rw [arr_length] at hi1
  rw [if_neg (not_lt.mpr (maxGrad_const n l g hg)), nearest_of hi0] at hz
  simp only [bind, Except.bind, pyGet_ok (arr_getElem? n i D hi1)] at hz
  obtain ⟨e1, e2, e3⟩ : _ ∧ _ ∧ _ := by simpa [pure, Except.pure, bind, Except.bind] using hz
  exact ⟨e1.symm, e2.symm, e3.symm⟩

theorem tens_nearest (k : ℕ) (hk : k < 9) :
    NearestRow (arr 9 fun i => 10 * (i:ℝ) - 40) (10 * (k:ℝ) - 40) k (10 * (k:ℝ) - 40) := by
  refine ⟨arr_getElem? 9 k _ hk, ?_, ?_⟩
  · intro j c _
    rw [sub_self, abs_zero]; exact abs_nonneg _
  · intro j c hj hc
    obtain ⟨-, rfl⟩ := arr_lt_of_get hc
    rw [sub_self, abs_zero, abs_pos]
    have : (j:ℝ) < k := by exact_mod_cast hj
    intro h; linarith

/-- The hypotheses of C77 and of the partial statement of C78 are met by a table in steps of ten degrees with lift
(alpha + 5)/10 up to 10 degrees, stall at 20 degrees, and no moment: the zero-lift angle -5 degrees is found. -/
example : ∃ u, evalUnsteady (arr 9 fun i => 10 * (i:ℝ) - 40) (arr 9 fun i => if i = 6 then 1 / 2 else (i:ℝ) - 7 / 2)
    (arr 9 fun _ => 1 / 100) (arr 9 fun _ => (0:ℝ)) = .ok u ∧ u.alpha0 = -5 ∧ u.Cd0 = 1 / 100 := by
  have hlo := tens_nearest 1 (by norm_num)
  have hhi := tens_nearest 7 (by norm_num)
  norm_num at hlo hhi
  obtain ⟨u, hu⟩ := evalUnsteady_total_partial 9 (fun i => 10 * (i:ℝ) - 40) (fun i => if i = 6 then 1 / 2 else (i:ℝ) - 7 / 2)
    (fun _ => 1 / 100) 0 (by norm_num) 1 7 (by norm_num; exact hlo) (by norm_num; exact hhi) (by norm_num)
  obtain ⟨h2, h3, -⟩ := evalUnsteady_zero_lift_unique 9 _ _ _ _ u hu 1 7 (by norm_num; exact hlo)
    (by norm_num; exact hhi) 3 (1 / 2) (by norm_num) (by norm_num) (fun i h1 h2 => by interval_cases i <;> norm_num)
    (fun i h1 h2 => by interval_cases i <;> norm_num) (by norm_num)
  refine ⟨u, hu, ?_, by rw [h3]; ring⟩
  rw [h2]
  norm_num

/-- The hypotheses of the statement without a zero of the lift: lift one at all angles but 40 degrees. -/
example : ∃ u, evalUnsteady (arr 9 fun i => 10 * (i:ℝ) - 40) (arr 9 fun i => if i = 8 then 2 else (1:ℝ))
    (arr 9 fun _ => 1 / 100) (arr 9 fun _ => (0:ℝ)) = .ok u ∧ u.alpha0 = -30 := by
  have hlo := tens_nearest 1 (by norm_num)
  have hhi := tens_nearest 7 (by norm_num)
  norm_num at hlo hhi
  obtain ⟨u, hu⟩ := evalUnsteady_total_partial 9 (fun i => 10 * (i:ℝ) - 40) (fun i => if i = 8 then 2 else (1:ℝ))
    (fun _ => 1 / 100) 0 (by norm_num) 1 7 (by norm_num; exact hlo) (by norm_num; exact hhi) (by norm_num)
  refine ⟨u, hu, ?_⟩
  rw [((evalUnsteady_no_zero_lift 9 _ _ _ _ u hu 1 7 (by norm_num; exact hlo) (by norm_num; exact hhi) (by norm_num)
    ⟨7, 8, by norm_num, by norm_num, by norm_num⟩).2 (by norm_num) (by norm_num)).1]
  norm_num

/-! ## A table with a break in the moment curve -/

/-- Moment of the example: zero up to 15 degrees, then falling. -/
noncomputable def breakMoment (i : ℕ) : ℝ := if i ≤ 11 then 0 else 11 - (i:ℝ)

theorem fives_nearest (k : ℕ) (hk : k < 17) (x : ℝ) (h1 : -(5 / 2) ≤ 5 * (k:ℝ) - 40 - x) (h2 : 5 * (k:ℝ) - 40 - x < 5 / 2) :
    nearest (arr 17 fun i => 5 * (i:ℝ) - 40) x = .ok k := by
  refine nearest_of (b := 5 * (k:ℝ) - 40) ⟨arr_getElem? 17 k _ hk, ?_, ?_⟩
  · intro j c hc
    obtain ⟨-, rfl⟩ := arr_lt_of_get hc
    rcases lt_trichotomy j k with h | rfl | h
    · have : (j:ℝ) + 1 ≤ k := by exact_mod_cast h
      rw [abs_of_neg (show 5 * (j:ℝ) - 40 - x < 0 by linarith), abs_le]
      constructor <;> linarith
    · exact le_rfl
    · have : (k:ℝ) + 1 ≤ j := by exact_mod_cast h
      rw [abs_of_pos (show 0 < 5 * (j:ℝ) - 40 - x by linarith), abs_le]
      constructor <;> linarith
  · intro j c hj hc
    obtain ⟨-, rfl⟩ := arr_lt_of_get hc
    have : (j:ℝ) + 1 ≤ k := by exact_mod_cast hj
    rw [abs_of_neg (show 5 * (j:ℝ) - 40 - x < 0 by linarith), abs_lt]
    constructor <;> linarith

theorem fives_inc (i j : ℕ) (hij : i < j) (_ : j < 17) : 5 * (i:ℝ) - 40 < 5 * (j:ℝ) - 40 := by
  have : (i:ℝ) < j := by exact_mod_cast hij
  linarith

theorem fives_break {Y : ℕ → ℝ} {lo hi : ℕ} {m : ℝ} {k : ℕ} (hlo : lo < 17) (hhi : hi < 17)
    (h : ∀ i, BreakRow (fun i => 5 * (i:ℝ) - 40) Y lo hi m i → i = k) :
    findBreakpoint (arr 17 fun i => 5 * (i:ℝ) - 40) (arr 17 Y) lo hi m = .ok k := by
  obtain ⟨i, e, b⟩ := findBreakpoint_best 17 (fun i => 5 * (i:ℝ) - 40) Y fives_inc lo hi hlo hhi m
  rw [e, h i b]

/-- A table for which all of the parameters are computed (the second case of `evalUnsteady_rows`): steps of five degrees, lift
proportional to the angle, constant drag, and a moment that starts to fall at 15 degrees. -/
example : ∃ u, evalUnsteady (arr 17 fun i => 5 * (i:ℝ) - 40) (arr 17 fun i => (i:ℝ) - 8) (arr 17 fun _ => 1 / 100)
    (arr 17 breakMoment) = .ok u ∧ u.Cn1 = normalRow (fun i => 5 * (i:ℝ) - 40) (fun i => (i:ℝ) - 8) (fun _ => 1 / 100) 11 := by
  obtain ⟨g, hg⟩ := maxGrad_ok 17 breakMoment (by norm_num)
  have hg1 : 1 ≤ g := by
    have h1 := maxGrad_last 17 breakMoment (by norm_num) g hg
    norm_num [breakMoment] at h1
    exact h1
  have hz : ∃ z2 z3, zeroLift (arr 17 fun i => 5 * (i:ℝ) - 40) (arr 17 fun i => (i:ℝ) - 8) (arr 17 fun _ => 1 / 100)
      (arr 17 breakMoment) 2 14 = .ok (0, z2, z3) := by
    obtain ⟨k, t, -, -, -, -, -, h1, hY⟩ := interp_zero 17 2 14 (fun i => (i:ℝ) - 8) (by norm_num) (by norm_num) (by norm_num)
      (by norm_num)
    obtain ⟨g', hg'⟩ := maxGrad_ok 17 (fun i => (i:ℝ) - 8) (by norm_num)
    have h2 := maxGrad_first 17 _ (by norm_num) g' hg'
    norm_num at h2
    unfold zeroLift
    rw [hg']
    simp only [bind, Except.bind]
    rw [if_pos (by linarith), hY, hY, hY]
    have e : 5 * (k:ℝ) - 40 + t * (5 * ((k + 1 : ℕ):ℝ) - 40 - (5 * (k:ℝ) - 40)) = 0 := by
      push_cast at h1 ⊢
      linarith
    rw [e]
    exact ⟨_, _, rfl⟩
  obtain ⟨z2, z3, hz⟩ := hz
  have hb1 : findBreakpoint (arr 17 fun i => 5 * (i:ℝ) - 40) (arr 17 breakMoment) 8 14 1 = .ok 11 := by
    refine fives_break (by norm_num) (by norm_num) ?_
    intro i hi
    have e : ∀ k : ℕ, chordDev (fun i => 5 * (i:ℝ) - 40) breakMoment 8 14 1 k = breakMoment k + (k - 8) / 2 := by
      intro k
      simp only [chordDev, breakMoment]; norm_num; ring
    have h3 := hi.2.1 11 (by norm_num) (by norm_num)
    simp only [e] at h3
    have hlt : 8 ≤ i ∧ i < 14 := by rcases hi.1 with h | h <;> omega
    obtain ⟨h5, h6⟩ := hlt
    interval_cases i
    all_goals first
      | rfl
      | (exfalso; norm_num [breakMoment] at h3)
  have hb2 : findBreakpoint (arr 17 fun i => 5 * (i:ℝ) - 40) (arr 17 breakMoment) 3 8 0 = .ok 3 := by
    refine fives_break (by norm_num) (by norm_num) ?_
    intro i hi
    rcases hi.1 with h | ⟨h1, h2, h3⟩
    · exact h
    · exfalso
      have : i ≤ 11 := by omega
      norm_num [chordDev, breakMoment, this] at h3
  have hb3 : findBreakpoint (arr 17 fun i => 5 * (i:ℝ) - 40) (arr 17 fun _ => 1 / 100) 8 11 (-1) = .ok 8 := by
    refine fives_break (by norm_num) (by norm_num) ?_
    intro i hi
    rcases hi.1 with h | ⟨h1, h2, h3⟩
    · exact h
    · exfalso
      norm_num [chordDev] at h3
  have hmin : ∀ lo hi : ℕ, lo ≤ 11 → 12 < hi → LastLocalMin breakMoment lo hi (hi - 1) := by
    intro lo hi hlo hhi
    have h1 : LocalMin breakMoment lo hi (hi - 1) := by
      refine ⟨by omega, by omega, .inr ?_, .inl (by omega)⟩
      obtain ⟨m, rfl⟩ : ∃ m, hi = m + 13 := ⟨hi - 13, by omega⟩
      simp only [breakMoment, show ¬ m + 13 - 1 ≤ 11 by omega, if_false]
      rw [show m + 13 - 1 = m + 12 by omega, show m + 12 - 1 = m + 11 by omega]
      split_ifs with h
      · push_cast; linarith [show (0:ℝ) ≤ m by positivity]
      · push_cast; linarith
    exact .inl ⟨by omega, h1, fun j hj => by have := hj.2.1; omega⟩
  have hgrad : ∃ a l, npGradient (pySlice (cnCurve (arr 17 fun i => 5 * (i:ℝ) - 40) (arr 17 fun i => (i:ℝ) - 8)
        (arr 17 fun _ => 1 / 100)) 8 11) (pySlice ((arr 17 fun i => 5 * (i:ℝ) - 40).map deg2rad) 8 11) = .ok (a :: l) := by
    unfold npGradient
    rw [cnCurve_arr, pySlice_arr 17 8 11 _ (by norm_num)]
    simp only [List.length_map, List.length_range']
    rw [if_neg (by norm_num)]
    exact ⟨_, _, rfl⟩
  obtain ⟨a, l, hgrad⟩ := hgrad
  have hA : ∀ k : ℕ, k < 17 → pyGet (arr 17 fun i => 5 * (i:ℝ) - 40) k = .ok (5 * (k:ℝ) - 40) := fun k hk =>
    pyGet_ok (arr_getElem? 17 k _ hk)
  have hC : ∀ k : ℕ, k < 17 → pyGet (cnCurve (arr 17 fun i => 5 * (i:ℝ) - 40) (arr 17 fun i => (i:ℝ) - 8)
        (arr 17 fun _ => 1 / 100)) k
      = .ok (normalRow (fun i => 5 * (i:ℝ) - 40) (fun i => (i:ℝ) - 8) (fun _ => 1 / 100) k) := fun k hk => by
    rw [cnCurve_arr]; exact pyGet_ok (arr_getElem? 17 k _ hk)
  unfold evalUnsteady
  rw [fives_nearest 2 (by norm_num) (-Num.nat 30) (by norm_num [num_real]) (by norm_num [num_real]),
    fives_nearest 14 (by norm_num) (Num.nat 30) (by norm_num [num_real]) (by norm_num [num_real])]
  simp only [bind, Except.bind, hz]
  rw [fives_nearest 8 (by norm_num) 0 (by norm_num) (by norm_num)]
  simp only [hg]
  rw [if_pos (by norm_num [num_real]; linarith), hA 8 (by norm_num)]
  simp only
  rw [fives_nearest 15 (by norm_num) _ (by norm_num [num_real]) (by norm_num [num_real])]
  simp only
  rw [lastMin_ok 17 breakMoment 2 15 14 (by norm_num) (hmin 2 15 (by norm_num) (by norm_num)) (by norm_num)]
  simp only
  rw [hb1]
  simp only
  rw [hC 11 (by norm_num), hA 11 (by norm_num)]
  simp only
  rw [fives_nearest 3 (by norm_num) _ (by norm_num [num_real]) (by norm_num [num_real])]
  simp only
  rw [lastMin_ok 17 breakMoment 3 14 13 (by norm_num) (hmin 3 14 (by norm_num) (by norm_num)) (by norm_num), hb2]
  simp only
  rw [hC 3 (by norm_num), hgrad]
  simp only [pyMax]
  rw [hb3]
  simp only
  rw [hA 8 (by norm_num)]
  exact ⟨_, rfl, rfl⟩

end Verif
