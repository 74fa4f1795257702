import Verif.Props.Extrapolate

/-!
# Extrapolation of the moment coefficient (C63, C76)
-/

namespace Verif

theorem first_last (p : Polar ℝ) (hp : p.WF) (L H : ℝ) (hL : p.alpha.head? = some L) (hH : p.alpha.getLast? = some H) :
    ∀ a ∈ p.alpha, L ≤ a ∧ a ≤ H := by
  intro a ha
  have hi := hp.inc
  constructor
  · cases hal : p.alpha with
    | nil => rw [hal] at ha; simp at ha
    | cons b l =>
      rw [hal] at ha hi hL
      obtain rfl : b = L := by simpa using hL
      rcases List.mem_cons.mp ha with rfl | ha
      · exact le_refl _
      · exact ((List.pairwise_cons.mp hi).1 a ha).le
  · obtain ⟨m, hm⟩ := List.getLast?_eq_some_iff.mp hH
    rw [hm] at ha hi
    rcases List.mem_append.mp ha with ha | ha
    · exact ((List.pairwise_append.mp hi).2.2 a ha H (by simp)).le
    · simp at ha; exact ha.le

theorem getCM_inside (cmC cm0 L H a cl cd : ℝ) (h : L ≤ a ∧ a ≤ H) : getCM cmC cm0 L H a cl cd = .keep := by
  simp [getCM, h]

theorem getCM_mid (cmC cm0 L H a cl cd : ℝ) (h : -165 < a ∧ a < 165) : getCM cmC cm0 L H a cl cd ≠ .complaint := by
  unfold getCM
  simp only [num_real, Nat.cast_ofNat]
  split_ifs <;> simp

theorem getCM_table (cmC cm0 L H a cl cd : ℝ) (h : a = 170 ∨ a = 180 ∨ a = -170 ∨ a = -180) :
    getCM cmC cm0 L H a cl cd ≠ .complaint := by
  unfold getCM
  by_cases h1 : L ≤ a ∧ a ≤ H
  · simp [h1]
  · have h2 : ¬ (-Num.nat 165 < a ∧ a < Num.nat 165) := by
      simp only [num_real, Nat.cast_ofNat]
      rcases h with rfl | rfl | rfl | rfl <;> norm_num
    rw [if_neg h1, if_neg h2]
    unfold cmTable
    simp only [num_real, Nat.cast_ofNat]
    rcases h with rfl | rfl | rfl | rfl <;> norm_num <;> nofun

theorem mem_gridLow (L : ℝ) (h : -90 ≤ L) (a : ℝ) (ha : a ∈ cmGridLow L) : a ≤ L ∧ ∃ i : ℕ, a = -180 + 10 * (i : ℝ) := by
  rw [cmGridLow_eq L h] at ha
  obtain ⟨i, hi, rfl⟩ := List.mem_map.mp ha
  have hf : (-9 : ℤ) ≤ ⌊L / 10⌋ := Int.le_floor.mpr (by push_cast; linarith)
  have hi : i < (⌊L / 10⌋ + 19).toNat := by simpa using hi
  refine ⟨?_, i, rfl⟩
  have h1 : (i : ℤ) ≤ ⌊L / 10⌋ + 18 := by omega
  have h2 : (i : ℝ) ≤ (⌊L / 10⌋ : ℝ) + 18 := by exact_mod_cast h1
  have h3 := Int.floor_le (L / 10)
  linarith

theorem mem_gridHigh (H : ℝ) (h : H ≤ 90) (g2 : List ℝ) (hg : cmGridHigh H = .ok g2) (a : ℝ) (ha : a ∈ g2) :
    H ≤ a ∧ 10 * (⌈H / 10⌉ : ℝ) ≤ a ∧ ∃ i : ℕ, a = 180 - 10 * (i : ℝ) := by
  rw [cmGridHigh_eq H h] at hg
  obtain rfl := Except.ok.inj hg
  obtain ⟨i, hi, rfl⟩ := List.mem_map.mp ha
  have hf : ⌈H / 10⌉ ≤ 9 := Int.ceil_le.mpr (by push_cast; linarith)
  have hi : i < (19 - ⌈H / 10⌉).toNat := by simpa using hi
  have h3 := Int.le_ceil (H / 10)
  have h0 : (0 : ℝ) ≤ i := Nat.cast_nonneg i
  refine ⟨by linarith, by linarith, (18 - ⌈H / 10⌉ - i).toNat, ?_⟩
  have h1 : (((18 - ⌈H / 10⌉ - i).toNat : ℕ) : ℤ) = 18 - ⌈H / 10⌉ - i := Int.toNat_of_nonneg (by omega)
  have h2 : (((18 - ⌈H / 10⌉ - i).toNat : ℕ) : ℝ) = 18 - (⌈H / 10⌉ : ℝ) - i := by exact_mod_cast h1
  rw [h2]
  ring

/-- **C63** Whatever the coefficients, none of the angles at which `extrapolate` needs a moment meets the "no CM table value" branch. -/
theorem cm_no_complaint (p : Polar ℝ) (L H cdmin : ℝ) (h : p.Accepted L H cdmin) (g2 : List ℝ) (hg : cmGridHigh H = .ok g2)
    (a : ℝ) (ha : a ∈ cmGridLow L ++ p.alpha ++ g2) (cmC cm0 cl cd : ℝ) : getCM cmC cm0 L H a cl cd ≠ .complaint := by
  have hLH : L ≤ H := (first_last p h.wf L H h.first h.last L (List.mem_of_head? h.first)).2
  have hlo := h.low
  have hhi := h.high
  rcases List.mem_append.mp ha with ha | ha
  · rcases List.mem_append.mp ha with ha | ha
    · obtain ⟨h1, i, hi⟩ := mem_gridLow L h.low a ha
      by_cases h2 : 2 ≤ i
      · have : (2 : ℝ) ≤ i := by exact_mod_cast h2
        exact getCM_mid _ _ _ _ _ _ _ ⟨by rw [hi]; linarith, by linarith⟩
      · refine getCM_table _ _ _ _ _ _ _ ?_
        have : i = 0 ∨ i = 1 := by omega
        rcases this with rfl | rfl
        · right; right; right; rw [hi]; norm_num
        · right; right; left; rw [hi]; norm_num
    · rw [getCM_inside _ _ _ _ _ _ _ (first_last p h.wf L H h.first h.last a ha)]
      simp
  · obtain ⟨h1, h1', i, hi⟩ := mem_gridHigh H h.high g2 hg a ha
    by_cases h2 : 2 ≤ i
    · have : (2 : ℝ) ≤ i := by exact_mod_cast h2
      exact getCM_mid _ _ _ _ _ _ _ ⟨by linarith, by rw [hi]; linarith⟩
    · refine getCM_table _ _ _ _ _ _ _ ?_
      have : i = 0 ∨ i = 1 := by omega
      rcases this with rfl | rfl
      · right; left; rw [hi]; norm_num
      · left; rw [hi]; norm_num

/-- The hypotheses are met, with angles below, in and above the data. -/
example : cambered.Accepted (-5) 15 (1 / 1000) ∧ (-170 : ℝ) ∈ cmGridLow (-5) ∧
    ∃ g2, cmGridHigh (15 : ℝ) = .ok g2 ∧ (170 : ℝ) ∈ g2 := by
  refine ⟨⟨cambered_wf, rfl, rfl, by norm_num, by norm_num, by norm_num⟩, ?_, _, cmGridHigh_eq 15 (by norm_num), ?_⟩
  · rw [cmGridLow_eq (-5) (by norm_num)]
    have : ⌊(-5 / 10 : ℝ)⌋ = -1 := by rw [Int.floor_eq_iff]; norm_num
    rw [this]
    exact List.mem_map.mpr ⟨1, by simp, by norm_num⟩
  · have : ⌈(15 / 10 : ℝ)⌉ = 2 := by rw [Int.ceil_eq_iff]; norm_num
    rw [this]
    exact List.mem_map.mpr ⟨15, by simp, by norm_num⟩

/-! ## The moments of the data -/

theorem interpFrom_at (x y : ℝ) (B : List (ℝ × ℝ)) (hB : ∀ b ∈ B, x < b.1) : ∀ (A : List (ℝ × ℝ)) (p : ℝ × ℝ),
    (∀ a ∈ A, a.1 ≤ x) → interpFrom x p (A ++ (x, y) :: B) = y
  | [], p, _ => by
    simp only [List.nil_append, interpFrom, lt_irrefl, if_false]
    cases B with
    | nil => rfl
    | cons b B => simp [interpFrom, hB b (by simp)]
  | a :: A, p, hA => by
    simp only [List.cons_append, interpFrom, if_neg (not_lt.mpr (hA a (by simp)))]
    exact interpFrom_at x y B hB A a fun b hb => hA b (by simp [hb])

/-- At a tabulated angle the interpolation gives the value of its last occurrence. -/
theorem interpVal_at (xp fp : List ℝ) (i : ℕ) (x y : ℝ) (hx : xp[i]? = some x) (hy : fp[i]? = some y)
    (h1 : ∀ (j : ℕ) (z : ℝ), j < i → xp[j]? = some z → z ≤ x) (h2 : ∀ (j : ℕ) (z : ℝ), i < j → xp[j]? = some z → x < z) :
    interpVal xp fp x = y := by
  have hz : (xp.zip fp)[i]? = some (x, y) := by rw [List.getElem?_zip_eq_some]; exact ⟨hx, hy⟩
  obtain ⟨hi, hz'⟩ := List.getElem?_eq_some_iff.mp hz
  have hsplit : xp.zip fp = (xp.zip fp).take i ++ (x, y) :: (xp.zip fp).drop (i + 1) := by
    rw [← hz', List.cons_getElem_drop_succ, List.take_append_drop]
  have hA : ∀ a ∈ (xp.zip fp).take i, a.1 ≤ x := by
    intro a ha
    obtain ⟨j, hj⟩ := List.mem_iff_getElem?.mp ha
    rw [List.getElem?_take] at hj
    split_ifs at hj with hlt
    exact h1 j a.1 hlt (List.getElem?_zip_eq_some.mp hj).1
  have hB : ∀ a ∈ (xp.zip fp).drop (i + 1), x < a.1 := by
    intro a ha
    obtain ⟨j, hj⟩ := List.mem_iff_getElem?.mp ha
    rw [List.getElem?_drop] at hj
    exact h2 _ a.1 (by omega) (List.getElem?_zip_eq_some.mp hj).1
  unfold interpVal
  rw [hsplit]
  cases hT : (xp.zip fp).take i with
  | nil =>
    simp only [List.nil_append, lt_irrefl, if_false]
    cases hD : (xp.zip fp).drop (i + 1) with
    | nil => rfl
    | cons b B => rw [hD] at hB; simp [interpFrom, hB b (by simp)]
  | cons a A =>
    rw [hT] at hA
    simp only [List.cons_append, if_neg (not_lt.mpr (hA a (by simp)))]
    exact interpFrom_at x y _ hB A a fun b hb => hA b (by simp [hb])

theorem get_append3 {β : Type} (A B C : List β) (j : ℕ) (z : β) (h : (A ++ B ++ C)[j]? = some z) :
    (j < A.length ∧ A[j]? = some z) ∨ (A.length ≤ j ∧ j < A.length + B.length ∧ B[j - A.length]? = some z) ∨
    (A.length + B.length ≤ j ∧ C[j - (A.length + B.length)]? = some z) := by
  rcases Nat.lt_or_ge j (A.length + B.length) with h1 | h1
  · rw [List.getElem?_append_left (by simpa using h1)] at h
    rcases Nat.lt_or_ge j A.length with h2 | h2
    · left; rw [List.getElem?_append_left h2] at h; exact ⟨h2, h⟩
    · right; left; rw [List.getElem?_append_right h2] at h; exact ⟨h2, h1, h⟩
  · right; right; rw [List.getElem?_append_right (by simpa using h1)] at h
    simp only [List.length_append] at h
    exact ⟨h1, h⟩

theorem strict_get {l : List ℝ} (h : l.Pairwise (· < ·)) {i j : ℕ} {x y : ℝ} (hij : i < j) (hx : l[i]? = some x)
    (hy : l[j]? = some y) : x < y := by
  obtain ⟨h1, rfl⟩ := List.getElem?_eq_some_iff.mp hx
  obtain ⟨h2, rfl⟩ := List.getElem?_eq_some_iff.mp hy
  exact List.pairwise_iff_getElem.mp h i j h1 h2 hij

theorem gridHigh_strict (H : ℝ) (h : H ≤ 90) (g2 : List ℝ) (hg : cmGridHigh H = .ok g2) : g2.Pairwise (· < ·) := by
  rw [cmGridHigh_eq H h] at hg
  obtain rfl := Except.ok.inj hg
  rw [List.pairwise_map]
  refine List.pairwise_lt_range.imp fun {i j} hij => ?_
  have : (i : ℝ) < j := by exact_mod_cast hij
  linarith

/-- What the moments of the data rows are: those of the data, except that at a last angle divisible by ten the moment is lost. -/
theorem cm_rows (p q : Polar ℝ) (hp : p.WF) (L H : ℝ) (hL : p.alpha.head? = some L) (hH : p.alpha.getLast? = some H)
    (cdmax : ℝ) (AR : Option ℝ) (cdmin : ℝ) (n : ℕ) (h : p.extrapolate cdmax AR cdmin n = .ok q) :
    ∃ k, (∀ i < p.alpha.length, q.alpha[k + i]? = p.alpha[i]?) ∧
      (∀ (i : ℕ) (a : ℝ), p.alpha[i]? = some a → (a < H ∨ ∀ m : ℤ, H ≠ 10 * m) → q.cm[k + i]? = p.cm[i]?) ∧
      (∀ m : ℤ, H = 10 * m → q.cm[k + (p.alpha.length - 1)]? = some 0) := by
  obtain ⟨L', H', e, cmH, hr⟩ := exists_rim p hp
  obtain rfl : L' = L := by have := hr.first; rw [hL] at this; exact (Option.some.inj this).symm
  obtain rfl : H' = H := by have := hr.last; rw [hH] at this; exact (Option.some.inj this).symm
  obtain ⟨h0, hi1, hi2, hi3⟩ := ok_cases p hp L' H' cmH e hr cdmax AR cdmin n q h
  obtain ⟨g2, outs, hg, hlen, ⟨cmC, cm0, houts⟩, hok⟩ := extrapolate_ok p hp L' H' cmH e hr cdmax AR cdmin n h0 hi1 hi2 hi3
  rw [hok] at h
  obtain rfl := Except.ok.inj h
  have hcm : p.cm.length = p.alpha.length := hp.len .cm
  have hfl := first_last p hp L' H' hL hH
  set v := vitPar e (effCdmax p cdmax AR) with hv
  set g1 := cmGridLow L' with hg1
  set B := (extBefore v e n).map (fun r => rad2deg r.alpha) with hBdef
  set A := (extAfter v e n).map (fun r => rad2deg r.alpha) with hAdef
  have hpos : 0 < p.alpha.length := List.length_pos_iff.mpr hp.ne
  have hceil := Int.le_ceil (H' / 10)
  have hkeep : ∀ (i : ℕ) (a : ℝ), (g1 ++ p.alpha ++ g2)[i]? = some a → L' ≤ a → a ≤ H' → outs[i]? = some .keep := by
    intro i a ha h1 h2
    have hilt : i < outs.length := by
      have := (List.getElem?_eq_some_iff.mp ha).1
      rw [hlen]; simpa [Nat.add_assoc] using this
    obtain ⟨o, ho⟩ : ∃ o, outs[i]? = some o := ⟨_, List.getElem?_eq_getElem hilt⟩
    rw [ho]
    rcases houts i a o ha ho with ⟨cl, cd, rfl⟩ | ⟨rfl, _⟩
    · rw [getCM_inside _ _ _ _ _ _ _ ⟨h1, h2⟩]
    · rfl
  refine ⟨B.length, fun i hi => block_get B p.alpha A i hi, fun i a ha hcond => ?_, fun m hm => ?_⟩
  · have hi : i < p.alpha.length := (List.getElem?_eq_some_iff.mp ha).1
    obtain ⟨c, hc⟩ : ∃ c, p.cm[i]? = some c := ⟨_, List.getElem?_eq_getElem (by omega)⟩
    simp only [extPolar]
    rw [List.getElem?_map, block_get B p.alpha A i hi, ha, hc]
    simp only [Option.map_some, Option.some.injEq]
    have hxi : (g1 ++ p.alpha ++ g2)[g1.length + i]? = some a := by rw [block_get _ _ _ _ hi, ha]
    have hab := hfl a (List.mem_of_getElem? ha)
    refine interpVal_at _ _ (g1.length + i) a c hxi ?_ ?_ ?_
    · rw [List.getElem?_zipWith, hkeep _ a hxi hab.1 hab.2]
      have : (List.replicate g1.length (0 : ℝ) ++ p.cm ++ List.replicate g2.length 0)[g1.length + i]? = some c := by
        have := block_get (List.replicate g1.length (0 : ℝ)) p.cm (List.replicate g2.length 0) i (by omega)
        rw [List.length_replicate] at this
        rw [this, hc]
      rw [this]
      rfl
    · intro j z hj hz
      rcases get_append3 _ _ _ _ _ hz with ⟨_, h2⟩ | ⟨h1, h2, h3⟩ | ⟨h1, _⟩
      · exact le_trans (mem_gridLow L' hi2 z (List.mem_of_getElem? h2)).1 hab.1
      · exact (strict_get hp.inc (by omega) h3 ha).le
      · omega
    · intro j z hj hz
      rcases get_append3 _ _ _ _ _ hz with ⟨h1, _⟩ | ⟨h1, h2, h3⟩ | ⟨h1, h2⟩
      · omega
      · exact strict_get hp.inc (by omega) ha h3
      · have hz2 := mem_gridHigh H' hi1 g2 hg z (List.mem_of_getElem? h2)
        rcases hcond with hcond | hcond
        · linarith [hz2.1]
        · have : H' ≠ 10 * (⌈H' / 10⌉ : ℝ) := hcond ⌈H' / 10⌉
          have h4 : H' < 10 * (⌈H' / 10⌉ : ℝ) := lt_of_le_of_ne (by linarith) this
          linarith [hz2.2.1, hab.2]
  · have hceil' : ⌈H' / 10⌉ = m := by
      rw [hm]
      have : (10 * (m : ℝ)) / 10 = m := by ring
      rw [this, Int.ceil_intCast]
    have hm9 : m ≤ 9 := by
      have : (10 : ℝ) * m ≤ 90 := by rw [← hm]; exact hi1
      have : (m : ℝ) ≤ 9 := by linarith
      exact_mod_cast this
    have hg2 : g2[0]? = some H' := by
      have hg' := hg
      rw [cmGridHigh_eq H' hi1] at hg'
      obtain rfl := Except.ok.inj hg'
      rw [List.getElem?_map, List.getElem?_range (by omega), hceil', hm]
      simp
    have hg2len : 0 < g2.length := (List.getElem?_eq_some_iff.mp hg2).1
    have hlastget : p.alpha[p.alpha.length - 1]? = some H' := by rw [← List.getLast?_eq_getElem?, hH]
    simp only [extPolar]
    rw [List.getElem?_map, block_get B p.alpha A _ (by omega), hlastget]
    simp only [Option.map_some, Option.some.injEq]
    have hxi : (g1 ++ p.alpha ++ g2)[g1.length + p.alpha.length]? = some H' := by
      rw [List.getElem?_append_right (by simp)]
      simp [hg2]
    have hLH : L' ≤ H' := (hfl L' (List.mem_of_head? hL)).2
    refine interpVal_at _ _ (g1.length + p.alpha.length) H' 0 hxi ?_ ?_ ?_
    · rw [List.getElem?_zipWith, hkeep _ H' hxi hLH (le_refl _)]
      have : (List.replicate g1.length (0 : ℝ) ++ p.cm ++ List.replicate g2.length 0)[g1.length + p.alpha.length]? = some 0 := by
        rw [List.getElem?_append_right (by simp [hcm])]
        simp [hcm, hg2len]
      rw [this]
      rfl
    · intro j z hj hz
      rcases get_append3 _ _ _ _ _ hz with ⟨_, h2⟩ | ⟨h1, h2, h3⟩ | ⟨h1, _⟩
      · exact le_trans (mem_gridLow L' hi2 z (List.mem_of_getElem? h2)).1 hLH
      · exact (hfl z (List.mem_of_getElem? h3)).2
      · omega
    · intro j z hj hz
      rcases get_append3 _ _ _ _ _ hz with ⟨h1, _⟩ | ⟨h1, h2, h3⟩ | ⟨h1, h2⟩
      · omega
      · omega
      · exact strict_get (gridHigh_strict H' hi1 g2 hg) (by omega) hg2 h2

/-- **C76** The data rows keep their moment coefficients, except possibly the last one: that one is kept when its angle is not a
multiple of ten degrees (partial, see `cm_last_row_lost`). -/
theorem cm_rows_kept_partial (p q : Polar ℝ) (hp : p.WF) (cdmax : ℝ) (AR : Option ℝ) (cdmin : ℝ) (n : ℕ)
    (h : p.extrapolate cdmax AR cdmin n = .ok q) :
    ∃ k, (∀ i < p.alpha.length, q.alpha[k + i]? = p.alpha[i]?) ∧
      (∀ i, i + 1 < p.alpha.length → q.cm[k + i]? = p.cm[i]?) ∧
      ((∀ m : ℤ, (10 : ℝ) * m ∉ p.alpha.getLast?) → ∀ i < p.alpha.length, q.cm[k + i]? = p.cm[i]?) := by
  obtain ⟨L, hL⟩ := exists_head p.alpha hp.ne
  obtain ⟨H, hH⟩ := exists_last p.alpha hp.ne
  obtain ⟨k, h1, h2, _⟩ := cm_rows p q hp L H hL hH cdmax AR cdmin n h
  refine ⟨k, h1, fun i hi => ?_, fun hm i hi => ?_⟩
  · have hg : p.alpha[i]? = some p.alpha[i] := List.getElem?_eq_getElem (by omega)
    refine h2 i _ hg (.inl ?_)
    rw [List.getLast?_eq_getElem?] at hH
    exact strict_get hp.inc (by omega) hg hH
  · refine h2 i _ (List.getElem?_eq_getElem hi) (.inr fun m hmH => hm m ?_)
    rw [hH, hmH]
    rfl

example : ∃ q, cambered.extrapolate 1 none (1 / 1000) 15 = .ok q ∧ ∃ k, ∀ i < 3, q.cm[k + i]? = cambered.cm[i]? := by
  obtain ⟨q, h⟩ := cambered_ok
  obtain ⟨k, _, _, h3⟩ := cm_rows_kept_partial cambered q cambered_wf 1 none _ 15 h
  refine ⟨q, h, k, h3 fun m hm => ?_⟩
  have hm : (15 : ℝ) = 10 * m := by simpa [cambered] using hm
  have h2 : (15 : ℤ) = 10 * m := by exact_mod_cast hm
  omega

/-- **C76** Data ending at a multiple of ten degrees lose their last moment coefficient: the result has 0 there. -/
theorem cm_last_row_lost (p q : Polar ℝ) (hp : p.WF) (m : ℤ) (hm : p.alpha.getLast? = some (10 * (m : ℝ))) (cdmax : ℝ)
    (AR : Option ℝ) (cdmin : ℝ) (n : ℕ) (h : p.extrapolate cdmax AR cdmin n = .ok q) :
    ∃ k, (∀ i < p.alpha.length, q.alpha[k + i]? = p.alpha[i]?) ∧ q.cm[k + (p.alpha.length - 1)]? = some 0 := by
  obtain ⟨L, hL⟩ := exists_head p.alpha hp.ne
  obtain ⟨k, h1, _, h3⟩ := cm_rows p q hp L _ hL hm cdmax AR cdmin n h
  exact ⟨k, h1, h3 m rfl⟩

/-- A polar ending at 20 degrees with a moment coefficient of -1 there. -/
def ending20 : Polar ℝ := ⟨1, [-5, 0, 20], [0, 1, 2], [1, 1, 1], [1, 2, -1]⟩

example : ∃ q, ending20.extrapolate 1 none (1 / 1000) 15 = .ok q ∧
    ∃ k : ℕ, q.alpha[k + 2]? = some 20 ∧ q.cm[k + 2]? = some 0 ∧ ending20.cm[2]? = some (-1 : ℝ) := by
  have hwf : ending20.WF := ⟨by simp [ending20], by norm_num [ending20], by intro c; cases c <;> rfl⟩
  obtain ⟨_, _, _, _, _, h⟩ := extrapolate_ok ending20 hwf (-5) 20 (-1) ⟨deg2rad 20, 2, 1, deg2rad (-5), 0, 1⟩
    ⟨rfl, rfl, rfl, rfl, rfl, rfl, rfl, rfl, rfl⟩ 1 none (1 / 1000) 15 (by norm_num) (by norm_num) (by norm_num)
    (.inl (by simp [ending20]))
  obtain ⟨k, h1, h2⟩ := cm_last_row_lost ending20 _ hwf 2 (by simp [ending20]; norm_num) 1 none _ 15 h
  exact ⟨_, h, k, by rw [h1 2 (by simp [ending20])]; rfl, h2, rfl⟩

end Verif
