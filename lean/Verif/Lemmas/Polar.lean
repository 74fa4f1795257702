import Verif.Spec.Polar
import Mathlib.Tactic.Ring
import Mathlib.Tactic.FieldSimp
import Mathlib.Tactic.Linarith

/-! # Interpolation, sorting and union of lists over the reals -/

namespace Verif

/-- The value of `np.interp` on nonempty samples. -/
noncomputable def interpVal (xp fp : List ℝ) (x : ℝ) : ℝ :=
  match xp.zip fp with
  | [] => 0
  | p :: rest => if x < p.1 then p.2 else interpFrom x p rest

theorem npInterps_ok (xs xp fp : List ℝ) (hl : fp.length = xp.length) (hne : xp ≠ []) :
    npInterps xs xp fp = .ok (xs.map (interpVal xp fp)) := by
  unfold npInterps interpVal
  rw [if_pos hl.symm]
  cases xp with
  | nil => exact absurd rfl hne
  | cons a l =>
    cases fp with
    | nil => simp at hl
    | cons b m => rfl

theorem OnPolyline.cons {pts : List (ℝ × ℝ)} {x y : ℝ} (h : OnPolyline pts x y) (p : ℝ × ℝ) :
    OnPolyline (p :: pts) x y := by
  rcases h with h | ⟨i, q, r, hq, hr, h1, h2, h3⟩
  · exact .inl (List.mem_cons_of_mem _ h)
  · exact .inr ⟨i + 1, q, r, by simpa using hq, by simpa using hr, h1, h2, h3⟩

theorem interpFrom_onPolyline (x : ℝ) : ∀ (rest : List (ℝ × ℝ)) (p : ℝ × ℝ),
    ((p :: rest).map Prod.fst).Pairwise (· < ·) → p.1 ≤ x → (∃ q ∈ p :: rest, x ≤ q.1) →
    OnPolyline (p :: rest) x (interpFrom x p rest)
  | [], p, _, h1, h2 => by
    obtain ⟨q, hq, hx⟩ := h2
    obtain rfl : q = p := by simpa using hq
    left
    simp only [interpFrom, List.mem_singleton]
    exact Prod.ext (le_antisymm hx h1) rfl
  | q :: rest, p, hs, h1, h2 => by
    simp only [interpFrom]
    have hpq : p.1 < q.1 := by
      have := (List.pairwise_cons.mp hs).1
      exact this q.1 (by simp)
    by_cases hx : x < q.1
    · rw [if_pos hx]
      right
      refine ⟨0, p, q, by simp, by simp, h1, hx.le, ?_⟩
      have : q.1 - p.1 ≠ 0 := by linarith
      field_simp
      ring
    · rw [if_neg hx]
      refine (interpFrom_onPolyline x rest q (List.pairwise_cons.mp hs).2 (not_lt.mp hx) ?_).cons p
      obtain ⟨r, hr, hxr⟩ := h2
      rcases List.mem_cons.mp hr with rfl | hr
      · exact ⟨q, by simp, by linarith⟩
      · exact ⟨r, hr, hxr⟩

theorem interpVal_onPolyline (xp fp : List ℝ) (hl : fp.length = xp.length) (hs : xp.Pairwise (· < ·)) (x : ℝ)
    (h1 : ∃ a ∈ xp, a ≤ x) (h2 : ∃ a ∈ xp, x ≤ a) : OnPolyline (xp.zip fp) x (interpVal xp fp x) := by
  unfold interpVal
  cases xp with
  | nil => obtain ⟨a, ha, _⟩ := h1; simp at ha
  | cons a l =>
    cases fp with
    | nil => simp at hl
    | cons b m =>
      have hfst : ((a, b) :: l.zip m).map Prod.fst = a :: l := by
        have : m.length = l.length := by simpa using hl
        simp [List.map_fst_zip, this]
      have hax : a ≤ x := by
        obtain ⟨c, hc, hcx⟩ := h1
        rcases List.mem_cons.mp hc with rfl | hc
        · exact hcx
        · exact le_trans ((List.pairwise_cons.mp hs).1 c hc).le hcx
      simp only [List.zip_cons_cons]
      rw [if_neg (not_lt.mpr hax)]
      refine interpFrom_onPolyline x _ _ (by rw [hfst]; exact hs) hax ?_
      obtain ⟨c, hc, hxc⟩ := h2
      rw [← hfst] at hc
      obtain ⟨q, hq, rfl⟩ := List.mem_map.mp hc
      exact ⟨q, hq, hxc⟩

/-- The curve of a table with increasing angles has one value at each angle. -/
theorem OnPolyline.unique {pts : List (ℝ × ℝ)} (hs : (pts.map Prod.fst).Pairwise (· < ·)) {x y y' : ℝ}
    (h : OnPolyline pts x y) (h' : OnPolyline pts x y') : y = y' := by
  have hlt : ∀ (i j : ℕ) (p q : ℝ × ℝ), pts[i]? = some p → pts[j]? = some q → i < j → p.1 < q.1 := by
    intro i j p q hi hj hij
    obtain ⟨hi', hi⟩ := List.getElem?_eq_some_iff.mp hi
    obtain ⟨hj', hj⟩ := List.getElem?_eq_some_iff.mp hj
    have := List.pairwise_iff_getElem.mp hs i j (by simpa using hi') (by simpa using hj') hij
    simpa [hi, hj] using this
  -- every point of the curve, seen from segment `i`
  have hpt : ∀ (i : ℕ) (p : ℝ × ℝ) (y' : ℝ), pts[i]? = some p → p.1 = x → OnPolyline pts x y' → y' = p.2 := by
    intro i p y' hi hpx h'
    rcases h' with h' | ⟨j, q, r, hq, hr, h1, h2, h3⟩
    · obtain ⟨j, hj', hj⟩ := List.mem_iff_getElem.mp h'
      have hj : pts[j]? = some (x, y') := by rw [List.getElem?_eq_getElem hj', hj]
      rcases lt_trichotomy i j with hij | rfl | hij
      · have := hlt i j _ _ hi hj hij; simp [hpx] at this
      · rw [hi] at hj; injection hj with hj; rw [hj]
      · have := hlt j i _ _ hj hi hij; simp [hpx] at this
    · have hqr := hlt j (j + 1) _ _ hq hr (by omega)
      rcases lt_trichotomy i j with hij | rfl | hij
      · have := hlt i j _ _ hi hq hij; linarith
      · rw [hi] at hq; injection hq with hq; subst hq
        rw [← hpx, sub_self, mul_zero] at h3
        rcases mul_eq_zero.mp h3 with h | h
        · linarith
        · linarith
      · rcases Nat.eq_or_lt_of_le (Nat.succ_le_of_lt hij) with e | hij'
        · have e : j + 1 = i := e
          subst e
          rw [hi] at hr; injection hr with hr; subst hr
          rw [← hpx] at h3
          have h4 : (y' - p.2) * (p.1 - q.1) = 0 := by linarith
          rcases mul_eq_zero.mp h4 with h | h
          · linarith
          · linarith
        · have := hlt (j + 1) i _ _ hr hi hij'; linarith
  rcases h with h | ⟨i, p, q, hp, hq, h1, h2, h3⟩
  · obtain ⟨i, hi', hi⟩ := List.mem_iff_getElem.mp h
    exact (hpt i (x, y) y' (by rw [List.getElem?_eq_getElem hi', hi]) rfl h').symm
  · rcases h' with h' | ⟨j, r, s, hr, hs', h1', h2', h3'⟩
    · obtain ⟨j, hj', hj⟩ := List.mem_iff_getElem.mp h'
      exact hpt j (x, y') y (by rw [List.getElem?_eq_getElem hj', hj]) rfl (.inr ⟨i, p, q, hp, hq, h1, h2, h3⟩)
    · have hpq := hlt i (i + 1) _ _ hp hq (by omega)
      rcases lt_trichotomy i j with hij | rfl | hij
      · -- then x is the common node
        have hle : q.1 ≤ r.1 := by
          rcases Nat.eq_or_lt_of_le (Nat.succ_le_of_lt hij) with e | hij'
          · have e : i + 1 = j := e
            subst e; rw [hq] at hr; injection hr with hr; rw [hr]
          · exact (hlt (i + 1) j _ _ hq hr hij').le
        have hx : q.1 = x := by linarith
        rw [hpt (i + 1) q y hq hx (.inr ⟨i, p, q, hp, hq, h1, h2, h3⟩),
          hpt (i + 1) q y' hq hx (.inr ⟨j, r, s, hr, hs', h1', h2', h3'⟩)]
      · rw [hp] at hr; injection hr with hr; subst hr
        rw [hq] at hs'; injection hs' with hs'; subst hs'
        have : (y - y') * (q.1 - p.1) = 0 := by linarith
        rcases mul_eq_zero.mp this with h | h
        · linarith
        · linarith
      · have hle : s.1 ≤ p.1 := by
          rcases Nat.eq_or_lt_of_le (Nat.succ_le_of_lt hij) with e | hij'
          · have e : j + 1 = i := e
            subst e; rw [hp] at hs'; injection hs' with hs'; rw [hs']
          · exact (hlt (j + 1) i _ _ hs' hp hij').le
        have hx : p.1 = x := by linarith
        rw [hpt i p y hp hx (.inr ⟨i, p, q, hp, hq, h1, h2, h3⟩),
          hpt i p y' hp hx (.inr ⟨j, r, s, hr, hs', h1', h2', h3'⟩)]

theorem mem_dedupAdj (x : ℝ) : ∀ l : List ℝ, x ∈ dedupAdj l ↔ x ∈ l
  | [] => by simp [dedupAdj]
  | [a] => by simp [dedupAdj]
  | a :: b :: l => by
    simp only [dedupAdj, num_real, decide_eq_true_eq]
    split_ifs with h
    · subst h
      rw [mem_dedupAdj x (a :: l)]
      simp
    · rw [List.mem_cons, mem_dedupAdj x (b :: l), ← List.mem_cons]

theorem dedupAdj_strict : ∀ l : List ℝ, l.Pairwise (· ≤ ·) → (dedupAdj l).Pairwise (· < ·)
  | [], _ => by simp [dedupAdj]
  | [a], _ => by simp [dedupAdj]
  | a :: b :: l, h => by
    simp only [dedupAdj, num_real, decide_eq_true_eq]
    have hb := (List.pairwise_cons.mp h).2
    split_ifs with hab
    · exact dedupAdj_strict (b :: l) hb
    · refine List.pairwise_cons.mpr ⟨fun c hc => ?_, dedupAdj_strict (b :: l) hb⟩
      rw [mem_dedupAdj] at hc
      have h1 : a < b := lt_of_le_of_ne ((List.pairwise_cons.mp h).1 b (by simp)) hab
      rcases List.mem_cons.mp hc with rfl | hc
      · exact h1
      · exact lt_of_lt_of_le h1 ((List.pairwise_cons.mp hb).1 c hc)

theorem sort_le (l : List ℝ) : (l.insertionSort (fun a b => a ≤ b)).Pairwise (· ≤ ·) :=
  List.pairwise_insertionSort (fun a b : ℝ => a ≤ b) l

theorem mem_npUnion (a b : List ℝ) (x : ℝ) : x ∈ npUnion a b ↔ x ∈ a ∨ x ∈ b := by
  unfold npUnion npUnique
  rw [mem_dedupAdj, List.mem_insertionSort, List.mem_append]

theorem npUnion_strict (a b : List ℝ) : (npUnion a b).Pairwise (· < ·) := dedupAdj_strict _ (sort_le _)

theorem strict_ext {a b : List ℝ} (ha : a.Pairwise (· < ·)) (hb : b.Pairwise (· < ·)) (h : ∀ x, x ∈ a ↔ x ∈ b) :
    a = b := by
  refine List.Perm.eq_of_pairwise (le := (· < ·)) (fun x y _ _ h1 h2 => absurd h1 (not_lt.mpr h2.le)) ha hb ?_
  exact (List.perm_ext_iff_of_nodup (ha.imp ne_of_lt) (hb.imp ne_of_lt)).mpr h

theorem npUnion_comm (a b : List ℝ) : npUnion a b = npUnion b a :=
  strict_ext (npUnion_strict _ _) (npUnion_strict _ _) fun x => by rw [mem_npUnion, mem_npUnion, or_comm]

theorem real_npMinimum (a b : ℝ) : npMinimum a b = min a b := by
  unfold npMinimum
  simp only [num_real, Bool.false_eq_true, if_false]
  split_ifs with h
  · exact (min_eq_left h).symm
  · exact (min_eq_right (not_le.mp h).le).symm

theorem real_npMaximum (a b : ℝ) : npMaximum a b = max a b := by
  unfold npMaximum
  simp only [num_real, Bool.false_eq_true, if_false]
  split_ifs with h
  · exact (max_eq_left h).symm
  · exact (max_eq_right (not_le.mp h).le).symm

theorem foldl_min (l : List ℝ) (a : ℝ) : (∀ b ∈ l, l.foldl npMinimum a ≤ b) ∧ l.foldl npMinimum a ≤ a ∧
    (l.foldl npMinimum a ∈ a :: l) := by
  induction l generalizing a with
  | nil => simp
  | cons c l ih =>
    simp only [List.foldl_cons, real_npMinimum]
    obtain ⟨h1, h2, h3⟩ := ih (min a c)
    refine ⟨fun b hb => ?_, le_trans h2 (min_le_left _ _), ?_⟩
    · rcases List.mem_cons.mp hb with rfl | hb
      · exact le_trans h2 (min_le_right _ _)
      · exact h1 b hb
    · rcases List.mem_cons.mp h3 with h | h
      · rw [h]
        rcases min_choice a c with e | e <;> rw [e] <;> simp
      · simp [h]

theorem foldl_max (l : List ℝ) (a : ℝ) : (∀ b ∈ l, b ≤ l.foldl npMaximum a) ∧ a ≤ l.foldl npMaximum a ∧
    (l.foldl npMaximum a ∈ a :: l) := by
  induction l generalizing a with
  | nil => simp
  | cons c l ih =>
    simp only [List.foldl_cons, real_npMaximum]
    obtain ⟨h1, h2, h3⟩ := ih (max a c)
    refine ⟨fun b hb => ?_, le_trans (le_max_left _ _) h2, ?_⟩
    · rcases List.mem_cons.mp hb with rfl | hb
      · exact le_trans (le_max_right _ _) h2
      · exact h1 b hb
    · rcases List.mem_cons.mp h3 with h | h
      · rw [h]
        rcases max_choice a c with e | e <;> rw [e] <;> simp
      · simp [h]

/-- `a.min()` is a lower bound that is attained. -/
theorem npMin_spec (l : List ℝ) (hne : l ≠ []) : ∃ m, npMin l = .ok m ∧ m ∈ l ∧ ∀ b ∈ l, m ≤ b := by
  cases l with
  | nil => exact absurd rfl hne
  | cons a l =>
    obtain ⟨h1, h2, h3⟩ := foldl_min l a
    refine ⟨_, rfl, h3, fun b hb => ?_⟩
    rcases List.mem_cons.mp hb with rfl | hb
    · exact h2
    · exact h1 b hb

/-- `a.max()` is an upper bound that is attained. -/
theorem npMax_spec (l : List ℝ) (hne : l ≠ []) : ∃ m, npMax l = .ok m ∧ m ∈ l ∧ ∀ b ∈ l, b ≤ m := by
  cases l with
  | nil => exact absurd rfl hne
  | cons a l =>
    obtain ⟨h1, h2, h3⟩ := foldl_max l a
    refine ⟨_, rfl, h3, fun b hb => ?_⟩
    rcases List.mem_cons.mp hb with rfl | hb
    · exact h2
    · exact h1 b hb

theorem Polar.WF.pairwise_zip {p : Polar ℝ} (h : p.WF) (c : Col) :
    ((p.alpha.zip (p.col c)).map Prod.fst).Pairwise (· < ·) := by
  rw [List.map_fst_zip (by rw [h.len c])]
  exact h.inc

theorem Polar.WF.at_unique {p : Polar ℝ} (h : p.WF) {c : Col} {x y y' : ℝ} (hy : p.At c x y) (hy' : p.At c x y') : y = y' :=
  OnPolyline.unique (h.pairwise_zip c) hy hy'

/-- The value of a column at an angle inside the range, by `np.interp`. -/
theorem Polar.WF.at_interp {p : Polar ℝ} (h : p.WF) (c : Col) {x : ℝ} (hx : p.Covers x) :
    p.At c x (interpVal p.alpha (p.col c) x) :=
  interpVal_onPolyline _ _ (h.len c) h.inc x hx.1 hx.2

end Verif
