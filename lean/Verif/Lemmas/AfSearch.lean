import Verif.Model.CCAirfoil
import Verif.Spec.AfSearch
import Verif.Lemmas.Polar
import Mathlib.Tactic.Ring
import Mathlib.Tactic.Linarith
import Mathlib.Tactic.NormNum

/-! # Table searches over the reals -/

namespace Verif

theorem FirstMax.lt {l : List ℝ} {k : ℕ} {b : ℝ} (h : FirstMax l k b) : k < l.length := by
  have := h.1
  by_contra hk
  rw [List.getElem?_eq_none (by omega)] at this
  simp at this

theorem argmaxFrom_spec : ∀ (l pre : List ℝ) (best : ℝ) (k : ℕ), FirstMax pre k best →
    ∃ b, FirstMax (pre ++ l) (argmaxFrom best k pre.length l) b
  | [], pre, best, k, h => ⟨best, by simpa [argmaxFrom] using h⟩
  | x :: l, pre, best, k, h => by
    have hk := h.lt
    simp only [argmaxFrom, num_real, Bool.false_eq_true, if_false]
    have e : pre ++ x :: l = (pre ++ [x]) ++ l := by simp
    have el : pre.length + 1 = (pre ++ [x]).length := by simp
    split_ifs with hx
    · rw [e, el]
      refine argmaxFrom_spec l (pre ++ [x]) best k ⟨?_, ?_, ?_⟩
      · rw [List.getElem?_append_left hk]; exact h.1
      · intro j y hj
        rcases lt_or_ge j pre.length with hlt | hge
        · rw [List.getElem?_append_left hlt] at hj
          exact h.2.1 j y hj
        · rw [List.getElem?_append_right hge] at hj
          have := List.mem_of_getElem? hj
          have : y = x := by simpa using this
          rw [this]; exact hx
      · intro j y hj hy
        rw [List.getElem?_append_left (by omega)] at hy
        exact h.2.2 j y hj hy
    · push Not at hx
      rw [e, el]
      refine argmaxFrom_spec l (pre ++ [x]) x pre.length ⟨by simp, ?_, ?_⟩
      · intro j y hj
        rcases lt_or_ge j pre.length with hlt | hge
        · rw [List.getElem?_append_left hlt] at hj
          exact le_trans (h.2.1 j y hj) hx.le
        · rw [List.getElem?_append_right hge] at hj
          have := List.mem_of_getElem? hj
          have : y = x := by simpa using this
          rw [this]
      · intro j y hj hy
        rw [List.getElem?_append_left hj] at hy
        exact lt_of_le_of_lt (h.2.1 j y hy) hx

theorem npArgmax_spec (l : List ℝ) (hne : l ≠ []) : ∃ k b, npArgmax l = .ok k ∧ FirstMax l k b := by
  cases l with
  | nil => exact absurd rfl hne
  | cons x l =>
    obtain ⟨b, hb⟩ := argmaxFrom_spec l [x] x 0 ⟨by simp, fun j y hj => by
      have := List.mem_of_getElem? hj
      have : y = x := by simpa using this
      rw [this], fun j y hj => by omega⟩
    exact ⟨_, b, rfl, by simpa using hb⟩

/-- The same loop with the order reversed. -/
theorem argminFrom_eq : ∀ (l : List ℝ) (best : ℝ) (k i : ℕ),
    argminFrom best k i l = argmaxFrom (-best) k i (l.map fun a => -a)
  | [], _, _, _ => rfl
  | x :: l, best, k, i => by
    simp only [argminFrom, argmaxFrom, List.map_cons, num_real, Bool.false_eq_true, if_false, neg_le_neg_iff]
    rw [argminFrom_eq l, argminFrom_eq l]

theorem npArgmin_eq (l : List ℝ) : npArgmin l = npArgmax (l.map fun a => -a) := by
  cases l with
  | nil => rfl
  | cons x l => simp only [npArgmin, npArgmax, List.map_cons, argminFrom_eq]

theorem nearest_spec (l : List ℝ) (x : ℝ) (hne : l ≠ []) : ∃ k b, nearest l x = .ok k ∧ NearestRow l x k b := by
  obtain ⟨k, b, h1, h2, h3, h4⟩ := npArgmax_spec ((l.map fun a => nabs (a - x)).map fun a => -a) (by simpa using hne)
  rw [List.map_map, List.getElem?_map, Option.map_eq_some_iff] at h2
  obtain ⟨c, hc, rfl⟩ := h2
  refine ⟨k, c, by rw [nearest, npArgmin_eq, h1], hc, ?_, ?_⟩
  · intro j d hd
    have := h3 j (-|d - x|) (by rw [List.map_map, List.getElem?_map, hd]; simp [num_real])
    simp only [Function.comp, num_real] at this
    linarith
  · intro j d hj hd
    have := h4 j (-|d - x|) hj (by rw [List.map_map, List.getElem?_map, hd]; simp [num_real])
    simp only [Function.comp, num_real] at this
    linarith

theorem FirstMax.unique {l : List ℝ} {k k' : ℕ} {b b' : ℝ} (h : FirstMax l k b) (h' : FirstMax l k' b') : k = k' := by
  have e : b = b' := le_antisymm (h'.2.1 _ _ h.1) (h.2.1 _ _ h'.1)
  rcases lt_trichotomy k k' with hlt | he | hgt
  · exact absurd (h'.2.2 k b hlt h.1) (by rw [e]; exact lt_irrefl _)
  · exact he
  · exact absurd (h.2.2 k' b' hgt h'.1) (by rw [e]; exact lt_irrefl _)

theorem NearestRow.unique {l : List ℝ} {x : ℝ} {k k' : ℕ} {b b' : ℝ} (h : NearestRow l x k b) (h' : NearestRow l x k' b') :
    k = k' := by
  rcases lt_trichotomy k k' with hlt | he | hgt
  · have := h'.2.2 k b hlt h.1
    have := h.2.1 k' b' h'.1
    linarith
  · exact he
  · have := h.2.2 k' b' hgt h'.1
    have := h'.2.1 k b h.1
    linarith

theorem NearestRow.lt {l : List ℝ} {x : ℝ} {k : ℕ} {b : ℝ} (h : NearestRow l x k b) : k < l.length := by
  have := h.1
  by_contra hk
  rw [List.getElem?_eq_none (by omega)] at this
  simp at this

theorem nearest_of {l : List ℝ} {x : ℝ} {k : ℕ} {b : ℝ} (h : NearestRow l x k b) : nearest l x = .ok k := by
  have hne : l ≠ [] := by
    rintro rfl
    have := h.lt
    simp at this
  obtain ⟨k', b', h1, h2⟩ := nearest_spec l x hne
  rw [h1, h2.unique h]

/-- In an increasing table the row nearest to a larger angle does not come earlier. -/
theorem NearestRow.mono {l : List ℝ} (hs : l.Pairwise (· < ·)) {x y : ℝ} (hxy : x ≤ y) {i k : ℕ} {a b : ℝ}
    (hi : NearestRow l x i a) (hk : NearestRow l y k b) : i ≤ k := by
  by_contra hlt
  push Not at hlt
  have hba : b < a := by
    have h1 := hi.1
    have h2 := hk.1
    rw [List.getElem?_eq_some_iff] at h1 h2
    obtain ⟨p1, e1⟩ := h1
    obtain ⟨p2, e2⟩ := h2
    rw [← e1, ← e2]
    exact List.pairwise_iff_getElem.mp hs k i p2 p1 hlt
  have h1 := hi.2.2 k b hlt hk.1
  have h2 := hk.2.1 i a hi.1
  rw [← sq_lt_sq] at h1
  rw [← sq_le_sq] at h2
  nlinarith

theorem pyGet_ok {β : Type} {l : List β} {i : ℕ} {a : β} (h : l[i]? = some a) : pyGet l i = .ok a := by
  rw [pyGet, h]

theorem pyGet_inv {β : Type} {l : List β} {i : ℕ} {a : β} (h : pyGet l i = .ok a) : l[i]? = some a := by
  unfold pyGet at h
  cases e : l[i]? with
  | none => rw [e] at h; cases h
  | some b => rw [e] at h; cases h; rfl

theorem pySlice_getElem? {β : Type} (l : List β) (lo hi j : ℕ) :
    (pySlice l lo hi)[j]? = if j < hi - lo then l[lo + j]? else none := by
  unfold pySlice
  rw [List.getElem?_take, List.getElem?_drop]

theorem pySlice_isEmpty {β : Type} (l : List β) (lo hi : ℕ) (hhi : hi < l.length) :
    (pySlice l lo hi).isEmpty = decide (hi ≤ lo) := by
  unfold pySlice
  rw [Bool.eq_iff_iff, List.isEmpty_iff_length_eq_zero, decide_eq_true_iff, List.length_take, List.length_drop]
  omega

theorem searchGrid_getElem? (k : ℕ) (hk : k ≤ 200) : (searchGrid : List ℝ)[k]? = some (sweepAngle k) := by
  unfold searchGrid npLinspace arr
  rw [List.getElem?_map, List.getElem?_map, List.getElem?_range (by omega)]
  simp only [Option.map_some, num_real, sweepAngle]
  congr 2
  split_ifs with h
  · have : (k:ℝ) = 200 := by exact_mod_cast (by omega : k = 200)
    rw [this]; norm_num
  · push_cast; ring

theorem searchGrid_length : (searchGrid : List ℝ).length = 201 := by simp [searchGrid, npLinspace, arr]

end Verif
