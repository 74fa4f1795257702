import Verif.Model.Py
import Mathlib.Tactic.Ring
import Mathlib.Tactic.FieldSimp
import Mathlib.Tactic.Linarith

/-! # `np.interp` over the reals -/

namespace Verif

theorem arr_length {β : Type} (n : ℕ) (X : ℕ → β) : (arr n X).length = n := by simp [arr]

theorem arr_getElem? {β : Type} (n j : ℕ) (X : ℕ → β) (hj : j < n) : (arr n X)[j]? = some (X j) := by
  unfold arr
  rw [List.getElem?_map, List.getElem?_range hj, Option.map_some]

theorem npBisect_spec (key : ℝ) (xp : ℕ → ℝ) (n : ℕ) : ∀ (d lo hi : ℕ), hi - lo = d → 0 < lo → lo ≤ hi → xp (lo - 1) ≤ key →
    (hi = n ∨ key < xp hi) → lo ≤ npBisect key xp lo hi ∧ npBisect key xp lo hi ≤ hi ∧ xp (npBisect key xp lo hi - 1) ≤ key ∧
      (npBisect key xp lo hi = n ∨ key < xp (npBisect key xp lo hi)) := by
  intro d
  induction d using Nat.strong_induction_on with
  | _ d ih =>
    intro lo hi hd h0 hle h1 h2
    rw [npBisect]
    by_cases hlt : lo < hi
    · rw [if_pos hlt]
      split_ifs with hm
      · obtain ⟨a, b, c, e⟩ := ih (hi - (lo + (hi - lo) / 2 + 1)) (by omega) (lo + (hi - lo) / 2 + 1) hi rfl (by omega) (by omega)
          (by simpa using hm) h2
        exact ⟨by omega, b, c, e⟩
      · obtain ⟨a, b, c, e⟩ := ih (lo + (hi - lo) / 2 - lo) (by omega) lo (lo + (hi - lo) / 2) rfl h0 (by omega) h1
          (.inr (not_le.mp hm))
        exact ⟨a, by omega, c, e⟩
    · rw [if_neg hlt]
      obtain rfl : lo = hi := by omega
      exact ⟨le_rfl, le_rfl, h1, h2⟩

theorem npScan_spec (key : ℝ) (xp : ℕ → ℝ) (n : ℕ) : ∀ (d i : ℕ), n - i = d → 0 < i → i ≤ n → xp (i - 1) ≤ key →
    i ≤ npScan key xp n i ∧ npScan key xp n i ≤ n ∧ xp (npScan key xp n i - 1) ≤ key ∧
      (npScan key xp n i = n ∨ key < xp (npScan key xp n i)) := by
  intro d
  induction d with
  | zero =>
    intro i hd h0 hle h1
    rw [npScan, if_neg (by omega)]
    exact ⟨le_rfl, hle, h1, .inl (by omega)⟩
  | succ d ih =>
    intro i hd h0 hle h1
    rw [npScan]
    by_cases h : xp i ≤ key
    · rw [if_pos ⟨by omega, h⟩]
      obtain ⟨a, b, c, e⟩ := ih (i + 1) (by omega) (by omega) (by omega) (by simpa using h)
      exact ⟨by omega, b, c, e⟩
    · rw [if_neg (by tauto)]
      exact ⟨le_rfl, hle, h1, .inr (not_le.mp h)⟩

/-- The search ends at a segment that contains the key, whatever the order of the sample points. -/
theorem npSearch_spec (key : ℝ) (xp : ℕ → ℝ) (n : ℕ) (hn : 0 < n) (h0 : xp 0 ≤ key) :
    npSearch key xp n < n ∧ xp (npSearch key xp n) ≤ key ∧ (npSearch key xp n + 1 = n ∨ key < xp (npSearch key xp n + 1)) := by
  unfold npSearch
  by_cases c1 : n ≤ 4
  · rw [if_pos c1]
    obtain ⟨a, b, c, e⟩ := npScan_spec key xp n _ 1 rfl one_pos hn (by simpa using h0)
    rw [show npScan key xp n 1 - 1 + 1 = npScan key xp n 1 by omega]
    exact ⟨by omega, c, e⟩
  rw [if_neg c1]
  by_cases c2 : key < xp 1
  · rw [if_pos c2]
    exact ⟨hn, h0, .inr c2⟩
  rw [if_neg c2]
  by_cases c3 : key < xp 2
  · rw [if_pos c3]
    exact ⟨by omega, not_lt.mp c2, .inr c3⟩
  rw [if_neg c3]
  by_cases c4 : key < xp 3
  · rw [if_pos c4]
    exact ⟨by omega, not_lt.mp c3, .inr c4⟩
  rw [if_neg c4]
  have key9 : ∀ hi : ℕ, 3 ≤ hi → hi ≤ n → (hi = n ∨ key < xp hi) →
      npBisect key xp 3 hi - 1 < n ∧ xp (npBisect key xp 3 hi - 1) ≤ key ∧
        (npBisect key xp 3 hi - 1 + 1 = n ∨ key < xp (npBisect key xp 3 hi - 1 + 1)) := by
    intro hi h3 hn' h
    obtain ⟨a, b, c, e⟩ := npBisect_spec key xp n _ 3 hi rfl (by norm_num) h3 (by simpa using not_lt.mp c3) h
    rw [show npBisect key xp 3 hi - 1 + 1 = npBisect key xp 3 hi by omega]
    exact ⟨by omega, c, e⟩
  by_cases c5 : 10 < n ∧ key < xp 9
  · rw [if_pos c5]
    exact key9 9 (by norm_num) (by omega) (.inr c5.2)
  · rw [if_neg c5]
    exact key9 n (by omega) le_rfl (.inl rfl)

/-- `np.interp` within the samples, in any order: interpolation in the segment found by the search, which contains the query, the same for every column. -/
theorem npInterp_search (n : ℕ) (hn : 0 < n) (X : ℕ → ℝ) (x : ℝ) (h0 : X 0 ≤ x) (h1 : x ≤ X (n - 1)) :
    ∃ (k : ℕ) (t : ℝ), k = npSearch x X n ∧ (k + 1 < n ∧ x < X (k + 1) ∨ (k + 1 = n ∧ t = 0)) ∧ 0 ≤ t ∧ t ≤ 1 ∧ X k ≤ x ∧
      X k + t * (X (k + 1) - X k) = x ∧ ∀ Y : ℕ → ℝ, npInterp x (arr n fun i => (X i, Y i)) = .ok (Y k + t * (Y (k + 1) - Y k)) := by
  set j := npSearch x X n with hj
  obtain ⟨s1, s2, s3⟩ := npSearch_spec x X n hn h0
  rw [← hj] at s1 s2 s3
  have hval : ∀ Y : ℕ → ℝ, npInterp x (arr n fun i => (X i, Y i)) = if j = n - 1 then .ok (Y j) else if X j == x then .ok (Y j) else
      .ok ((Y (j + 1) - Y j) / (X (j + 1) - X j) * (x - X j) + Y j) := by
    intro Y
    have hp : ∀ i < n, ((arr n fun i => (X i, Y i))[i]?.getD (0, 0)) = (X i, Y i) := by
      intro i hi
      rw [arr_getElem? n i _ hi]
      rfl
    have hsearch : npSearch x (fun i => ((arr n fun i => (X i, Y i))[i]?.getD (0, 0)).1) n = j := by
      have hb : ∀ (d lo hi : ℕ), hi - lo = d → hi ≤ n → npBisect x (fun i => ((arr n fun i => (X i, Y i))[i]?.getD (0, 0)).1) lo hi
          = npBisect x X lo hi := by
        intro d
        induction d using Nat.strong_induction_on with
        | _ d ih =>
          intro lo hi hd hh
          rw [npBisect, npBisect.eq_def x X]
          by_cases hlt : lo < hi
          · rw [if_pos hlt, if_pos hlt, hp _ (by omega)]
            rw [ih _ (by omega) (lo + (hi - lo) / 2 + 1) hi rfl hh, ih _ (by omega) lo (lo + (hi - lo) / 2) rfl (by omega)]
          · rw [if_neg hlt, if_neg hlt]
      have hs : ∀ (d i : ℕ), n - i = d → npScan x (fun i => ((arr n fun i => (X i, Y i))[i]?.getD (0, 0)).1) n i = npScan x X n i := by
        intro d
        induction d with
        | zero => intro i hd; rw [npScan, npScan.eq_def x X, if_neg (by omega), if_neg (by omega)]
        | succ d ih =>
          intro i hd
          rw [npScan, npScan.eq_def x X, ih (i + 1) (by omega)]
          rw [hp i (by omega)]
      rw [hj]
      unfold npSearch
      rw [hs _ 1 rfl]
      by_cases c : n ≤ 4
      · rw [if_pos c, if_pos c]
      · beta_reduce
        rw [if_neg c, if_neg c, hp 1 (by omega), hp 2 (by omega), hp 3 (by omega)]
        by_cases c9 : 10 < n
        · rw [hp 9 (by omega)]
          split_ifs <;> first | rfl | rw [hb _ _ _ rfl (by omega)]
        · simp only [c9, false_and, if_false]
          rw [hb _ _ _ rfl le_rfl]
    unfold npInterp
    simp only [arr_length]
    rw [if_neg (by omega), hp (n - 1) (by omega), hp 0 hn, if_neg (not_lt.mpr h1), if_neg (not_lt.mpr h0), hsearch, hp j s1]
    by_cases e : j = n - 1
    · rw [if_pos e, if_pos e]
    · rw [if_neg e, if_neg e, hp (j + 1) (by omega)]
  by_cases e : j = n - 1
  · have hx : X j = x := le_antisymm s2 (by rw [e]; exact h1)
    exact ⟨j, 0, hj, .inr ⟨by omega, rfl⟩, le_rfl, zero_le_one, s2, by rw [hx]; ring, fun Y => by rw [hval, if_pos e]; simp⟩
  · have hlt : x < X (j + 1) := s3.resolve_left (by omega)
    have hd : 0 < X (j + 1) - X j := by linarith
    refine ⟨j, (x - X j) / (X (j + 1) - X j), hj, .inl ⟨by omega, hlt⟩, div_nonneg (by linarith) hd.le, (div_le_one hd).mpr (by linarith), s2,
      by field_simp; ring, fun Y => ?_⟩
    rw [hval, if_neg e]
    by_cases hx : X j = x
    · rw [if_pos (by simp [num_real, hx]), ← hx]
      simp
    · rw [if_neg (by simp [num_real, hx])]
      congr 1
      field_simp
      ring

/-- `np.interp` within the samples, in any order: interpolation in some segment that contains the query, the same for every column. -/
theorem npInterp_arr (n : ℕ) (hn : 0 < n) (X : ℕ → ℝ) (x : ℝ) (h0 : X 0 ≤ x) (h1 : x ≤ X (n - 1)) :
    ∃ (k : ℕ) (t : ℝ), (k + 1 < n ∧ x < X (k + 1) ∨ (k + 1 = n ∧ t = 0)) ∧ 0 ≤ t ∧ t ≤ 1 ∧ X k ≤ x ∧
      X k + t * (X (k + 1) - X k) = x ∧ ∀ Y : ℕ → ℝ, npInterp x (arr n fun i => (X i, Y i)) = .ok (Y k + t * (Y (k + 1) - Y k)) := by
  obtain ⟨k, t, -, h⟩ := npInterp_search n hn X x h0 h1
  exact ⟨k, t, h⟩

theorem npInterp_low (n : ℕ) (hn : 0 < n) (X Y : ℕ → ℝ) (x : ℝ) (h0 : x < X 0) (h1 : x ≤ X (n - 1)) :
    npInterp x (arr n fun i => (X i, Y i)) = .ok (Y 0) := by
  unfold npInterp
  simp only [arr_length]
  rw [if_neg (by omega), arr_getElem? n (n - 1) _ (by omega), arr_getElem? n 0 _ hn, Option.getD_some, Option.getD_some, if_neg (not_lt.mpr h1), if_pos h0]

theorem npInterp_high (n : ℕ) (hn : 0 < n) (X Y : ℕ → ℝ) (x : ℝ) (h1 : X (n - 1) < x) :
    npInterp x (arr n fun i => (X i, Y i)) = .ok (Y (n - 1)) := by
  unfold npInterp
  simp only [arr_length]
  rw [if_neg (by omega), arr_getElem? n (n - 1) _ (by omega), Option.getD_some, if_pos h1]

theorem arr_cons {β : Type} (n : ℕ) (f : ℕ → β) : arr (n + 1) f = f 0 :: (List.range' 1 n).map f := by
  unfold arr
  rw [List.range_eq_range', List.range'_succ]
  rfl

/-- Value of `np.interp` in the segment from sample `k` to `k + 1` of sorted samples. -/
theorem npInterp_segment (n : ℕ) (P : ℕ → ℝ × ℝ) (x : ℝ) (k : ℕ) (hk : k + 1 < n)
    (hle : ∀ i ≤ k, (P i).1 ≤ x) (hlt : ∀ i, k < i → i < n → x < (P i).1) :
    npInterp x (arr n P)
      = .ok (((P (k + 1)).2 - (P k).2) / ((P (k + 1)).1 - (P k).1) * (x - (P k).1) + (P k).2) := by
  obtain ⟨j, t, h1, -, -, h4, h5, h6⟩ := npInterp_arr n (by omega) (fun i => (P i).1) x (hle 0 (by omega)) (hlt (n - 1) (by omega) (by omega)).le
  have hk1 := hlt (k + 1) (by omega) hk
  have hk0 := hle k le_rfl
  obtain rfl : j = k := by
    rcases h1 with ⟨a, b⟩ | ⟨a, -⟩
    · rcases lt_trichotomy j k with h | h | h
      · exact absurd (hle (j + 1) (by omega)) (not_le.mpr b)
      · exact h
      · exact absurd h4 (not_le.mpr (hlt j h (by omega)))
    · exact absurd h4 (not_le.mpr (hlt j (by omega) (by omega)))
  have := h6 (fun i => (P i).2)
  simp only [Prod.mk.eta] at this
  rw [show (fun i => P i) = P from rfl] at this
  rw [this]
  have hd : (P (j + 1)).1 - (P j).1 ≠ 0 := by linarith
  have ht : t = (x - (P j).1) / ((P (j + 1)).1 - (P j).1) := by
    rw [eq_div_iff hd]
    linarith
  rw [ht]
  congr 1
  ring

theorem npInterp_pair (x a b u v : ℝ) : npInterp x [(a, u), (b, v)] = .ok (if b < x then v else if x < a then u else if b ≤ x then v
    else (v - u) / (b - a) * (x - a) + u) := by
  have hs : npSearch x (fun i => ([(a, u), (b, v)][i]?.getD (0, 0)).1) 2 = if b ≤ x then 1 else 0 := by
    unfold npSearch
    rw [if_pos (by norm_num), npScan, npScan]
    by_cases h : b ≤ x <;> simp [h]
  simp only [npInterp, List.length_cons, List.length_nil, zero_add, Nat.reduceAdd, hs]
  by_cases h1 : b < x
  · simp [h1]
  by_cases h2 : x < a
  · simp [h1, h2]
  by_cases h3 : b ≤ x
  · simp [h1, h2, h3]
  by_cases h4 : a = x
  · subst h4
    simp [h1, h3, num_real]
  · simp [h1, h2, h3, h4, num_real]

theorem npInterp_total {α : Type} [Num α] (n : ℕ) (hn : n ≠ 0) (P : ℕ → α × α) (x : α) :
    ∃ y, npInterp x (arr n P) = .ok y := by
  unfold npInterp
  simp only [arr_length, if_neg hn]
  split_ifs <;> exact ⟨_, rfl⟩

end Verif
