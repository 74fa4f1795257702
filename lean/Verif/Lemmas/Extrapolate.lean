import Verif.Lemmas.Polar
import Mathlib.Topology.ContinuousOn
import Mathlib.Analysis.Real.Pi.Bounds
import Mathlib.Tactic.NormNum
import Mathlib.Tactic.Linarith
import Mathlib.Tactic.FieldSimp
import Mathlib.Tactic.Positivity

/-!
# Facts about `np.linspace` and the blocks of `Polar.extrapolate`
-/

namespace Verif

open Set

/-! ## `np.linspace` -/

theorem linspace_length (a b : ℝ) (n : ℕ) : (npLinspace a b n).length = n := by simp [npLinspace, arr]

theorem linspace_eq (a b : ℝ) (n : ℕ) (hn : 2 ≤ n) :
    npLinspace a b n = (List.range n).map fun i : ℕ => a + i * ((b - a) / (n - 1 : ℝ)) := by
  unfold npLinspace arr
  refine List.map_congr_left fun i hi => ?_
  have hi : i < n := by simpa using hi
  have hc : ((n - 1 : ℕ) : ℝ) = n - 1 := by rw [Nat.cast_sub (by omega)]; simp
  have hpos : (0 : ℝ) < n - 1 := by
    have : (2 : ℝ) ≤ n := by exact_mod_cast hn
    linarith
  simp only [num_real, hc]
  split_ifs with h
  · have : (i : ℝ) = n - 1 := by rw [← h.1]; push_cast; ring
    rw [this]
    field_simp
    ring
  · ring

theorem linspace_get (a b : ℝ) (n i : ℕ) (hn : 2 ≤ n) (hi : i < n) :
    (npLinspace a b n)[i]? = some (a + i * ((b - a) / (n - 1 : ℝ))) := by
  rw [linspace_eq a b n hn, List.getElem?_map, List.getElem?_range hi]
  rfl

theorem linspace_head (a b : ℝ) (n : ℕ) (hn : 2 ≤ n) : (npLinspace a b n).head? = some a := by
  rw [List.head?_eq_getElem?, linspace_get a b n 0 hn (by omega)]
  simp

theorem linspace_last (a b : ℝ) (n : ℕ) (hn : 2 ≤ n) : (npLinspace a b n).getLast? = some b := by
  rw [List.getLast?_eq_getElem?, linspace_length, linspace_get a b n (n - 1) hn (by omega)]
  have hc : ((n - 1 : ℕ) : ℝ) = n - 1 := by rw [Nat.cast_sub (by omega)]; simp
  have hpos : (0 : ℝ) < n - 1 := by
    have : (2 : ℝ) ≤ n := by exact_mod_cast hn
    linarith
  rw [hc]
  congr 1
  field_simp
  ring

theorem linspace_strict (a b : ℝ) (n : ℕ) (hn : 2 ≤ n) (hab : a < b) : (npLinspace a b n).Pairwise (· < ·) := by
  rw [linspace_eq a b n hn, List.pairwise_map]
  refine List.pairwise_lt_range.imp fun {i j} hij => ?_
  have hpos : (0 : ℝ) < n - 1 := by
    have : (2 : ℝ) ≤ n := by exact_mod_cast hn
    linarith
  have hd : 0 < (b - a) / (n - 1 : ℝ) := div_pos (by linarith) hpos
  have : (i : ℝ) < j := by exact_mod_cast hij
  nlinarith

/-- The points after the first are right of `a`; the points before the last are left of `b`. -/
theorem linspace_bounds (a b : ℝ) (n i : ℕ) (x : ℝ) (hn : 2 ≤ n) (hab : a ≤ b) (hx : (npLinspace a b n)[i]? = some x) :
    a ≤ x ∧ x ≤ b ∧ (a < b → 1 ≤ i → a < x) ∧ (a < b → i + 1 < n → x < b) := by
  have hi : i < n := by
    have := (List.getElem?_eq_some_iff.mp hx).1
    rwa [linspace_length] at this
  rw [linspace_get a b n i hn hi] at hx
  obtain rfl := Option.some.inj hx
  have hpos : (0 : ℝ) < n - 1 := by
    have : (2 : ℝ) ≤ n := by exact_mod_cast hn
    linarith
  have hi' : (i : ℝ) ≤ n - 1 := by
    have : (i : ℝ) + 1 ≤ n := by exact_mod_cast hi
    linarith
  have hmul : (n - 1 : ℝ) * ((b - a) / (n - 1 : ℝ)) = b - a := by field_simp
  have hd : 0 ≤ (b - a) / (n - 1 : ℝ) := div_nonneg (by linarith) hpos.le
  have hi0 : (0 : ℝ) ≤ i := Nat.cast_nonneg i
  refine ⟨by nlinarith, by nlinarith, fun h h1 => ?_, fun h h1 => ?_⟩
  · have hd : 0 < (b - a) / (n - 1 : ℝ) := div_pos (by linarith) hpos
    have : (1 : ℝ) ≤ i := by exact_mod_cast h1
    nlinarith
  · have hd : 0 < (b - a) / (n - 1 : ℝ) := div_pos (by linarith) hpos
    have : (i : ℝ) + 1 < n := by exact_mod_cast h1
    nlinarith

theorem linspace_mem (a b : ℝ) (n : ℕ) (x : ℝ) (hn : 2 ≤ n) (hab : a ≤ b) (hx : x ∈ npLinspace a b n) : a ≤ x ∧ x ≤ b := by
  obtain ⟨i, hi⟩ := List.mem_iff_getElem?.mp hx
  exact ⟨(linspace_bounds a b n i x hn hab hi).1, (linspace_bounds a b n i x hn hab hi).2.1⟩

theorem linspace_drop_mem (a b : ℝ) (n : ℕ) (x : ℝ) (hn : 2 ≤ n) (hab : a ≤ b) (hx : x ∈ (npLinspace a b n).drop 1) :
    a ≤ x ∧ x ≤ b ∧ (a < b → a < x) := by
  obtain ⟨i, hi⟩ := List.mem_iff_getElem?.mp hx
  rw [List.getElem?_drop] at hi
  have h := linspace_bounds a b n _ x hn hab hi
  exact ⟨h.1, h.2.1, fun hab => h.2.2.1 hab (by omega)⟩

theorem linspace_mid_mem (a b : ℝ) (n : ℕ) (x : ℝ) (hn : 2 ≤ n) (hab : a < b)
    (hx : x ∈ ((npLinspace a b n).take (n - 2)).drop 1) : a < x ∧ x < b := by
  obtain ⟨i, hi⟩ := List.mem_iff_getElem?.mp hx
  rw [List.getElem?_drop, List.getElem?_take] at hi
  split_ifs at hi with h1
  have h := linspace_bounds a b n _ x hn hab.le hi
  exact ⟨h.2.2.1 hab (by omega), h.2.2.2 hab (by omega)⟩

/-! ## Degrees and radians -/

theorem rad_deg (x : ℝ) : rad2deg (deg2rad x) = x := by
  simp only [num_real]
  have := Real.pi_ne_zero
  field_simp

theorem deg_rad (x : ℝ) : deg2rad (rad2deg x) = x := by
  simp only [num_real]
  have := Real.pi_ne_zero
  field_simp

theorem deg2rad_lt {x y : ℝ} (h : x < y) : deg2rad x < deg2rad y := by
  simp only [num_real]
  have := Real.pi_pos
  exact mul_lt_mul_of_pos_right h (by positivity)

theorem deg2rad_le {x y : ℝ} (h : x ≤ y) : deg2rad x ≤ deg2rad y := by
  simp only [num_real]
  have := Real.pi_pos
  exact mul_le_mul_of_nonneg_right h (by positivity)

theorem rad2deg_lt {x y : ℝ} (h : x < y) : rad2deg x < rad2deg y := by
  simp only [num_real]
  have := Real.pi_pos
  exact mul_lt_mul_of_pos_right h (by positivity)

theorem rad2deg_le {x y : ℝ} (h : x ≤ y) : rad2deg x ≤ rad2deg y := by
  simp only [num_real]
  have := Real.pi_pos
  exact mul_le_mul_of_nonneg_right h (by positivity)

theorem deg2rad_90 : deg2rad (90 : ℝ) = Real.pi / 2 := by simp only [num_real]; ring
theorem deg2rad_neg (x : ℝ) : deg2rad (-x) = -deg2rad x := by simp only [num_real]; ring
theorem rad2deg_pi : rad2deg Real.pi = 180 := by
  simp only [num_real]
  have := Real.pi_ne_zero
  field_simp
theorem rad2deg_neg_pi : rad2deg (-Real.pi) = -180 := by
  simp only [num_real]
  have := Real.pi_ne_zero
  field_simp

/-! ## Gluing continuous functions -/

theorem continuousOn_glue {f g h : ℝ → ℝ} {a b c : ℝ} (hf : ContinuousOn f (Icc a b)) (hg : ContinuousOn g (Icc b c))
    (h1 : ∀ x ≤ b, h x = f x) (h2 : ∀ x, b ≤ x → h x = g x) (hab : a ≤ b) (hbc : b ≤ c) : ContinuousOn h (Icc a c) := by
  rw [← Icc_union_Icc_eq_Icc hab hbc]
  exact ContinuousOn.union_of_isClosed (hf.congr fun x hx => h1 x hx.2) (hg.congr fun x hx => h2 x hx.1) isClosed_Icc isClosed_Icc

/-! ## Viterna's curves -/

theorem viterna_continuousOn (v : VitPar ℝ) (k : ℝ) :
    ContinuousOn (fun a => (viterna v k a).1) (Iic (Real.pi / 2)) ∧ ContinuousOn (fun a => (viterna v k a).2) (Iic (Real.pi / 2)) := by
  have hm : Continuous fun a : ℝ => max a (1 / 10000) := continuous_id.max continuous_const
  constructor
  · simp only [viterna, real_npMaximum, num_real, Nat.cast_ofNat, Nat.cast_one]
    refine ContinuousOn.mul (ContinuousOn.add ?_ (ContinuousOn.div ?_ ?_ ?_)) continuousOn_const
    · exact (continuous_const.mul (Real.continuous_sin.comp (continuous_const.mul hm))).continuousOn
    · exact (continuous_const.mul ((Real.continuous_cos.comp hm).pow 2)).continuousOn
    · exact (Real.continuous_sin.comp hm).continuousOn
    · intro x hx
      refine (Real.sin_pos_of_pos_of_lt_pi ?_ ?_).ne'
      · exact lt_of_lt_of_le (by norm_num) (le_max_right _ _)
      · have hx : x ≤ Real.pi / 2 := hx
        have := Real.pi_gt_three
        exact max_lt (by linarith) (by linarith)
  · simp only [viterna, real_npMaximum, num_real, Nat.cast_ofNat, Nat.cast_one]
    exact ((continuous_const.mul ((Real.continuous_sin.comp hm).pow 2)).add
      (continuous_const.mul (Real.continuous_cos.comp hm))).continuousOn

/-- At the end of the data the formulas give the data. -/
theorem viterna_high (e : Ends ℝ) (cdmax k : ℝ) (h1 : 1 / 10000 ≤ e.alphaHigh) (h2 : e.alphaHigh < Real.pi / 2) :
    viterna (vitPar e cdmax) k e.alphaHigh = (e.clHigh * k, e.cdHigh) := by
  have hc : Real.cos e.alphaHigh ≠ 0 := (Real.cos_pos_of_mem_Ioo ⟨by linarith [Real.pi_pos], h2⟩).ne'
  have hs : Real.sin e.alphaHigh ≠ 0 := (Real.sin_pos_of_pos_of_lt_pi (by linarith) (by linarith [Real.pi_pos])).ne'
  simp only [viterna, vitPar, real_npMaximum, num_real, Nat.cast_ofNat, Nat.cast_one, max_eq_left h1, Real.sin_two_mul]
  generalize Real.cos e.alphaHigh = c at hc ⊢
  generalize Real.sin e.alphaHigh = s at hs ⊢
  ext
  · simp only
    field_simp
    ring
  · simp only
    field_simp
    ring

theorem viterna_90 (v : VitPar ℝ) (k : ℝ) : viterna v k (Real.pi / 2) = (0, v.cdmax) := by
  have h : (1 / 10000 : ℝ) ≤ Real.pi / 2 := by linarith [Real.pi_gt_three]
  simp only [viterna, real_npMaximum, num_real, Nat.cast_ofNat, Nat.cast_one, max_eq_left h, Real.sin_two_mul, Real.cos_pi_div_two,
    Real.sin_pi_div_two]
  ext <;> simp

/-! ## The curves before and after the data -/

/-- Lift before the data (angle in radians). -/
noncomputable def clBefore (v : VitPar ℝ) (e : Ends ℝ) (a : ℝ) : ℝ :=
  if a ≤ -Real.pi + e.alphaHigh then (a + Real.pi) / e.alphaHigh * e.clHigh * (7 / 10)
  else if a ≤ -(Real.pi / 2) then (viterna v (7 / 10) (a + Real.pi)).1
  else if a ≤ alpha5max e then (viterna v (-(7 / 10)) (-a)).1
  else -e.clHigh * (7 / 10) + (a + e.alphaHigh) / (e.alphaLow + e.alphaHigh) * (e.clLow + e.clHigh * (7 / 10))

/-- Drag before the data. -/
noncomputable def cdBefore (v : VitPar ℝ) (e : Ends ℝ) (a : ℝ) : ℝ :=
  if a ≤ -(Real.pi / 2) then (viterna v 1 (a + Real.pi)).2
  else if a ≤ alpha5max e then (viterna v 1 (-a)).2
  else e.cdLow + (a - e.alphaLow) / (-e.alphaHigh - e.alphaLow) * (e.cdHigh - e.cdLow)

/-- Lift after the data. -/
noncomputable def clAfter (v : VitPar ℝ) (e : Ends ℝ) (a : ℝ) : ℝ :=
  if a ≤ Real.pi / 2 then (viterna v 1 a).1
  else if a ≤ Real.pi - e.alphaHigh then (viterna v (-(7 / 10)) (Real.pi - a)).1
  else (a - Real.pi) / e.alphaHigh * e.clHigh * (7 / 10)

/-- Drag after the data. -/
noncomputable def cdAfter (v : VitPar ℝ) (a : ℝ) : ℝ :=
  if a ≤ Real.pi / 2 then (viterna v 1 a).2 else (viterna v 1 (Real.pi - a)).2

theorem viterna_cd (v : VitPar ℝ) (k l a : ℝ) : (viterna v k a).2 = (viterna v l a).2 := rfl

/-- What is needed for the blocks to lie in order. -/
structure Ends.Good (e : Ends ℝ) : Prop where
  pos : 1 / 10000 ≤ e.alphaHigh
  lt : e.alphaHigh < Real.pi / 2
  low : -(Real.pi / 2) ≤ e.alphaLow
  le : e.alphaLow ≤ e.alphaHigh

theorem alpha5max_le (e : Ends ℝ) : alpha5max e ≤ e.alphaLow ∧ alpha5max e ≤ -e.alphaHigh := by
  unfold alpha5max
  split_ifs with h
  · exact ⟨le_refl _, h⟩
  · exact ⟨(not_le.mp h).le, le_refl _⟩

theorem alpha5max_ge (e : Ends ℝ) (he : e.Good) : -(Real.pi / 2) ≤ alpha5max e := by
  unfold alpha5max
  split_ifs with h
  · exact he.low
  · linarith [he.lt]

theorem clAdj_real : (clAdj : ℝ) = 7 / 10 := by simp [clAdj, num_real]

theorem neg_pi_div : (-Num.pi / Num.nat 2 : ℝ) = -(Real.pi / 2) := by simp only [num_real]; push_cast; ring

theorem ext7_row (v : VitPar ℝ) (e : Ends ℝ) (he : e.Good) (n : ℕ) (hn : 2 ≤ n) (r : ExtRow ℝ) (hr : r ∈ ext7 v e n) :
    -Real.pi ≤ r.alpha ∧ r.alpha ≤ -Real.pi + e.alphaHigh ∧ r.cl = clBefore v e r.alpha ∧ r.cd = cdBefore v e r.alpha := by
  obtain ⟨a, ha, rfl⟩ := List.mem_map.mp hr
  have hp := he.pos
  have hl := he.lt
  have h := linspace_mem _ _ n a hn (by simp only [num_real]; linarith) ha
  simp only [num_real] at h
  refine ⟨h.1, h.2, ?_, ?_⟩
  · simp only [clBefore, if_pos h.2, clAdj_real, num_real]
  · simp only [cdBefore, if_pos (show a ≤ -(Real.pi / 2) by linarith), num_real]

theorem ext6_row (v : VitPar ℝ) (e : Ends ℝ) (he : e.Good) (n : ℕ) (hn : 2 ≤ n) (r : ExtRow ℝ) (hr : r ∈ ext6 v e n) :
    -Real.pi + e.alphaHigh < r.alpha ∧ r.alpha ≤ -(Real.pi / 2) ∧ r.cl = clBefore v e r.alpha ∧ r.cd = cdBefore v e r.alpha := by
  obtain ⟨a, ha, rfl⟩ := List.mem_map.mp hr
  have hp := he.pos
  have hl := he.lt
  rw [neg_pi_div] at ha
  have h := linspace_drop_mem _ _ n a hn (by simp only [num_real]; linarith) ha
  simp only [num_real] at h
  have h1 := h.2.2 (by linarith)
  refine ⟨h1, h.2.1, ?_, ?_⟩
  · simp only [clBefore, if_neg (not_le.mpr h1), if_pos h.2.1, clAdj_real, num_real]
  · simp only [cdBefore, if_pos h.2.1, num_real]
    rfl

theorem ext5_row (v : VitPar ℝ) (e : Ends ℝ) (he : e.Good) (n : ℕ) (hn : 2 ≤ n) (r : ExtRow ℝ) (hr : r ∈ ext5 v e n)
    (h5 : -(Real.pi / 2) < alpha5max e) :
    -(Real.pi / 2) < r.alpha ∧ r.alpha ≤ alpha5max e ∧ r.cl = clBefore v e r.alpha ∧ r.cd = cdBefore v e r.alpha := by
  obtain ⟨a, ha, rfl⟩ := List.mem_map.mp hr
  have hp := he.pos
  have hl := he.lt
  rw [neg_pi_div] at ha
  have h := linspace_drop_mem _ _ n a hn h5.le ha
  have h1 := h.2.2 h5
  have h2 : -Real.pi + e.alphaHigh < a := by linarith
  refine ⟨h1, h.2.1, ?_, ?_⟩
  · simp only [clBefore, if_neg (not_le.mpr h1), if_neg (not_le.mpr h2), if_pos h.2.1, clAdj_real]
  · simp only [cdBefore, if_neg (not_le.mpr h1), if_pos h.2.1]
    rfl

theorem ext4_row (v : VitPar ℝ) (e : Ends ℝ) (he : e.Good) (n : ℕ) (hn : 2 ≤ n) (r : ExtRow ℝ) (hr : r ∈ ext4 e n) :
    alpha5max e < r.alpha ∧ r.alpha < e.alphaLow ∧ r.cl = clBefore v e r.alpha ∧ r.cd = cdBefore v e r.alpha := by
  have hp := he.pos
  have hl := he.lt
  unfold ext4 at hr
  split_ifs at hr with h4
  · simp at hr
  · obtain ⟨a, ha, rfl⟩ := List.mem_map.mp hr
    have h := linspace_mid_mem _ _ n a hn (not_le.mp h4) ha
    have h5 : alpha5max e = -e.alphaHigh := by simp [alpha5max, h4]
    rw [h5]
    have h1 : -(Real.pi / 2) < a := by linarith
    have h2 : -Real.pi + e.alphaHigh < a := by linarith
    refine ⟨h.1, h.2, ?_, ?_⟩
    · simp only [clBefore, if_neg (not_le.mpr h1), if_neg (not_le.mpr h2), h5, if_neg (not_le.mpr h.1), clAdj_real]
    · simp only [cdBefore, if_neg (not_le.mpr h1), h5, if_neg (not_le.mpr h.1)]

theorem ext1_row (v : VitPar ℝ) (e : Ends ℝ) (he : e.Good) (n : ℕ) (hn : 2 ≤ n) (r : ExtRow ℝ) (hr : r ∈ ext1 v e n) :
    e.alphaHigh < r.alpha ∧ r.alpha ≤ Real.pi / 2 ∧ r.cl = clAfter v e r.alpha ∧ r.cd = cdAfter v r.alpha := by
  obtain ⟨a, ha, rfl⟩ := List.mem_map.mp hr
  have hl := he.lt
  simp only [num_real, Nat.cast_ofNat] at ha
  have h := linspace_drop_mem _ _ n a hn hl.le ha
  refine ⟨h.2.2 hl, h.2.1, ?_, ?_⟩
  · simp only [clAfter, if_pos h.2.1]
  · simp only [cdAfter, if_pos h.2.1]

theorem ext2_row (v : VitPar ℝ) (e : Ends ℝ) (he : e.Good) (n : ℕ) (hn : 2 ≤ n) (r : ExtRow ℝ) (hr : r ∈ ext2 v e n) :
    Real.pi / 2 < r.alpha ∧ r.alpha ≤ Real.pi - e.alphaHigh ∧ r.cl = clAfter v e r.alpha ∧ r.cd = cdAfter v r.alpha := by
  obtain ⟨a, ha, rfl⟩ := List.mem_map.mp hr
  have hl := he.lt
  simp only [num_real, Nat.cast_ofNat] at ha
  have hlt : Real.pi / 2 < Real.pi - e.alphaHigh := by linarith
  have h := linspace_drop_mem _ _ n a hn hlt.le ha
  have h1 := h.2.2 hlt
  refine ⟨h1, h.2.1, ?_, ?_⟩
  · simp only [clAfter, if_neg (not_le.mpr h1), if_pos h.2.1, clAdj_real, num_real]
  · simp only [cdAfter, if_neg (not_le.mpr h1), num_real]
    rfl

theorem ext3_row (v : VitPar ℝ) (e : Ends ℝ) (he : e.Good) (n : ℕ) (hn : 2 ≤ n) (r : ExtRow ℝ) (hr : r ∈ ext3 v e n) :
    Real.pi - e.alphaHigh < r.alpha ∧ r.alpha ≤ Real.pi ∧ r.cl = clAfter v e r.alpha ∧ r.cd = cdAfter v r.alpha := by
  obtain ⟨a, ha, rfl⟩ := List.mem_map.mp hr
  have hl := he.lt
  have hp := he.pos
  simp only [num_real] at ha
  have hlt : Real.pi - e.alphaHigh < Real.pi := by linarith
  have h := linspace_drop_mem _ _ n a hn hlt.le ha
  have h1 := h.2.2 hlt
  have h2 : Real.pi / 2 < a := by linarith
  refine ⟨h1, h.2.1, ?_, ?_⟩
  · simp only [clAfter, if_neg (not_le.mpr h1), if_neg (not_le.mpr h2), clAdj_real, num_real]
  · simp only [cdAfter, if_neg (not_le.mpr h2), num_real]

/-! ## Continuity of the curves -/

theorem clAfter_continuousOn (e : Ends ℝ) (he : e.Good) (cdmax : ℝ) :
    ContinuousOn (clAfter (vitPar e cdmax) e) (Icc e.alphaHigh Real.pi) := by
  have hp := he.pos
  have hl := he.lt
  have hne : e.alphaHigh ≠ 0 := by linarith
  set v := vitPar e cdmax with hv
  have c1 : ContinuousOn (fun a => (viterna v 1 a).1) (Icc e.alphaHigh (Real.pi / 2)) :=
    (viterna_continuousOn v 1).1.mono fun x hx => hx.2
  have c2 : ContinuousOn (fun a => (viterna v (-(7 / 10)) (Real.pi - a)).1) (Icc (Real.pi / 2) (Real.pi - e.alphaHigh)) :=
    (viterna_continuousOn v (-(7 / 10))).1.comp (continuous_const.sub continuous_id).continuousOn
      fun x hx => by show Real.pi - x ≤ Real.pi / 2; linarith [hx.1]
  have c3 : ContinuousOn (fun a => (a - Real.pi) / e.alphaHigh * e.clHigh * (7 / 10)) (Icc (Real.pi - e.alphaHigh) Real.pi) := by
    fun_prop
  refine continuousOn_glue c1 (continuousOn_glue c2 c3 (h := fun a => if a ≤ Real.pi - e.alphaHigh then
      (viterna v (-(7 / 10)) (Real.pi - a)).1 else (a - Real.pi) / e.alphaHigh * e.clHigh * (7 / 10))
      (fun x hx => by simp [hx]) (fun x hx => ?_) (by linarith) (by linarith)) (fun x hx => by simp [clAfter, hx])
      (fun x hx => ?_) hl.le (by linarith [Real.pi_pos])
  · rcases eq_or_lt_of_le hx with h | h
    · subst h
      simp only [le_refl, if_true, sub_sub_cancel]
      rw [hv, viterna_high e cdmax _ hp hl]
      field_simp
      ring
    · simp [not_le.mpr h]
  · rcases eq_or_lt_of_le hx with h | h
    · subst h
      have h1 : Real.pi / 2 ≤ Real.pi - e.alphaHigh := by linarith
      simp only [clAfter, le_refl, if_true, h1]
      rw [show Real.pi - Real.pi / 2 = Real.pi / 2 by ring, viterna_90, viterna_90]
    · simp [clAfter, not_le.mpr h]

theorem cdAfter_continuousOn (e : Ends ℝ) (he : e.Good) (v : VitPar ℝ) :
    ContinuousOn (cdAfter v) (Icc e.alphaHigh Real.pi) := by
  have hl := he.lt
  have c1 : ContinuousOn (fun a => (viterna v 1 a).2) (Icc e.alphaHigh (Real.pi / 2)) :=
    (viterna_continuousOn v 1).2.mono fun x hx => hx.2
  have c2 : ContinuousOn (fun a => (viterna v 1 (Real.pi - a)).2) (Icc (Real.pi / 2) Real.pi) :=
    (viterna_continuousOn v 1).2.comp (continuous_const.sub continuous_id).continuousOn
      fun x hx => by show Real.pi - x ≤ Real.pi / 2; linarith [hx.1]
  refine continuousOn_glue c1 c2 (fun x hx => by simp [cdAfter, hx]) (fun x hx => ?_) hl.le (by linarith [Real.pi_pos])
  rcases eq_or_lt_of_le hx with h | h
  · subst h
    simp only [cdAfter, le_refl, if_true]
    rw [show Real.pi - Real.pi / 2 = Real.pi / 2 by ring]
  · simp [cdAfter, not_le.mpr h]

theorem clBefore_continuousOn (e : Ends ℝ) (he : e.Good) (cdmax : ℝ) :
    ContinuousOn (clBefore (vitPar e cdmax) e) (Icc (-Real.pi) e.alphaLow) := by
  have hp := he.pos
  have hl := he.lt
  have hne : e.alphaHigh ≠ 0 := by linarith
  have h5 := alpha5max_ge e he
  have h5' := (alpha5max_le e).1
  set v := vitPar e cdmax with hv
  have c1 : ContinuousOn (fun a => (a + Real.pi) / e.alphaHigh * e.clHigh * (7 / 10)) (Icc (-Real.pi) (-Real.pi + e.alphaHigh)) := by
    fun_prop
  have c2 : ContinuousOn (fun a => (viterna v (7 / 10) (a + Real.pi)).1) (Icc (-Real.pi + e.alphaHigh) (-(Real.pi / 2))) :=
    (viterna_continuousOn v (7 / 10)).1.comp (continuous_id.add continuous_const).continuousOn
      fun x hx => by show x + Real.pi ≤ Real.pi / 2; linarith [hx.2]
  have c3 : ContinuousOn (fun a => (viterna v (-(7 / 10)) (-a)).1) (Icc (-(Real.pi / 2)) (alpha5max e)) :=
    (viterna_continuousOn v (-(7 / 10))).1.comp continuous_neg.continuousOn
      fun x hx => by show -x ≤ Real.pi / 2; linarith [hx.1]
  have c4 : ContinuousOn (fun a => -e.clHigh * (7 / 10) + (a + e.alphaHigh) / (e.alphaLow + e.alphaHigh) *
      (e.clLow + e.clHigh * (7 / 10))) (Icc (alpha5max e) e.alphaLow) := by fun_prop
  have c34 : ContinuousOn (fun a => if a ≤ alpha5max e then (viterna v (-(7 / 10)) (-a)).1
      else -e.clHigh * (7 / 10) + (a + e.alphaHigh) / (e.alphaLow + e.alphaHigh) * (e.clLow + e.clHigh * (7 / 10)))
      (Icc (-(Real.pi / 2)) e.alphaLow) := by
    by_cases h4 : e.alphaLow ≤ -e.alphaHigh
    · have : alpha5max e = e.alphaLow := by simp [alpha5max, h4]
      rw [this] at c3 ⊢
      exact c3.congr fun x hx => by simp [hx.2]
    · refine continuousOn_glue c3 c4 (fun x hx => by simp [hx]) (fun x hx => ?_) h5 h5'
      rcases eq_or_lt_of_le hx with h | h
      · subst h
        have : alpha5max e = -e.alphaHigh := by simp [alpha5max, h4]
        simp only [le_refl, if_true, this, neg_neg]
        rw [hv, viterna_high e cdmax _ hp hl]
        simp
      · simp [not_le.mpr h]
  have c234 : ContinuousOn (fun a => if a ≤ -(Real.pi / 2) then (viterna v (7 / 10) (a + Real.pi)).1 else
      if a ≤ alpha5max e then (viterna v (-(7 / 10)) (-a)).1
      else -e.clHigh * (7 / 10) + (a + e.alphaHigh) / (e.alphaLow + e.alphaHigh) * (e.clLow + e.clHigh * (7 / 10)))
      (Icc (-Real.pi + e.alphaHigh) e.alphaLow) := by
    refine continuousOn_glue c2 c34 (fun x hx => by simp [hx]) (fun x hx => ?_) (by linarith) (by linarith)
    rcases eq_or_lt_of_le hx with h | h
    · subst h
      simp only [le_refl, if_true, h5, neg_neg]
      rw [show -(Real.pi / 2) + Real.pi = Real.pi / 2 by ring, viterna_90, viterna_90]
    · simp [not_le.mpr h]
  refine continuousOn_glue c1 c234 (fun x hx => by simp [clBefore, hx]) (fun x hx => ?_) (by linarith) (by linarith)
  rcases eq_or_lt_of_le hx with h | h
  · subst h
    have h1 : -Real.pi + e.alphaHigh ≤ -(Real.pi / 2) := by linarith
    simp only [clBefore, le_refl, if_true, h1]
    rw [show -Real.pi + e.alphaHigh + Real.pi = e.alphaHigh by ring, hv, viterna_high e cdmax _ hp hl]
    field_simp
  · simp [clBefore, not_le.mpr h]

theorem cdBefore_continuousOn (e : Ends ℝ) (he : e.Good) (cdmax : ℝ) :
    ContinuousOn (cdBefore (vitPar e cdmax) e) (Icc (-Real.pi) e.alphaLow) := by
  have hp := he.pos
  have hl := he.lt
  have h5 := alpha5max_ge e he
  have h5' := (alpha5max_le e).1
  set v := vitPar e cdmax with hv
  have c2 : ContinuousOn (fun a => (viterna v 1 (a + Real.pi)).2) (Icc (-Real.pi) (-(Real.pi / 2))) :=
    (viterna_continuousOn v 1).2.comp (continuous_id.add continuous_const).continuousOn
      fun x hx => by show x + Real.pi ≤ Real.pi / 2; linarith [hx.2]
  have c3 : ContinuousOn (fun a => (viterna v 1 (-a)).2) (Icc (-(Real.pi / 2)) (alpha5max e)) :=
    (viterna_continuousOn v 1).2.comp continuous_neg.continuousOn
      fun x hx => by show -x ≤ Real.pi / 2; linarith [hx.1]
  have c4 : ContinuousOn (fun a => e.cdLow + (a - e.alphaLow) / (-e.alphaHigh - e.alphaLow) * (e.cdHigh - e.cdLow))
      (Icc (alpha5max e) e.alphaLow) := by fun_prop
  have c34 : ContinuousOn (fun a => if a ≤ alpha5max e then (viterna v 1 (-a)).2
      else e.cdLow + (a - e.alphaLow) / (-e.alphaHigh - e.alphaLow) * (e.cdHigh - e.cdLow))
      (Icc (-(Real.pi / 2)) e.alphaLow) := by
    by_cases h4 : e.alphaLow ≤ -e.alphaHigh
    · have : alpha5max e = e.alphaLow := by simp [alpha5max, h4]
      rw [this] at c3 ⊢
      exact c3.congr fun x hx => by simp [hx.2]
    · refine continuousOn_glue c3 c4 (fun x hx => by simp [hx]) (fun x hx => ?_) h5 h5'
      rcases eq_or_lt_of_le hx with h | h
      · subst h
        have : alpha5max e = -e.alphaHigh := by simp [alpha5max, h4]
        simp only [le_refl, if_true, this, neg_neg]
        rw [hv, viterna_high e cdmax _ hp hl, div_self (by linarith [not_le.mp h4])]
        ring
      · simp [not_le.mpr h]
  refine continuousOn_glue c2 c34 (fun x hx => by simp [cdBefore, hx]) (fun x hx => ?_) (by linarith) (by linarith)
  rcases eq_or_lt_of_le hx with h | h
  · subst h
    simp only [cdBefore, le_refl, if_true, h5, neg_neg]
    rw [show -(Real.pi / 2) + Real.pi = Real.pi / 2 by ring]
  · simp [cdBefore, not_le.mpr h]

theorem ext5_row' (v : VitPar ℝ) (e : Ends ℝ) (he : e.Good) (n : ℕ) (hn : 2 ≤ n) (r : ExtRow ℝ) (hr : r ∈ ext5 v e n) :
    -(Real.pi / 2) ≤ r.alpha ∧ r.alpha ≤ alpha5max e ∧ r.cl = clBefore v e r.alpha ∧ r.cd = cdBefore v e r.alpha := by
  rcases lt_or_eq_of_le (alpha5max_ge e he) with h5 | h5
  · have h := ext5_row v e he n hn r hr h5
    exact ⟨h.1.le, h.2⟩
  · obtain ⟨a, ha, rfl⟩ := List.mem_map.mp hr
    have hp := he.pos
    have hl := he.lt
    rw [neg_pi_div] at ha
    have h := linspace_drop_mem _ _ n a hn h5.le ha
    obtain rfl : a = -(Real.pi / 2) := by linarith [h.1, h.2.1]
    have h2 : -Real.pi + e.alphaHigh < -(Real.pi / 2) := by linarith
    refine ⟨h.1, h.2.1, ?_, ?_⟩
    · simp only [clBefore, if_neg (not_le.mpr h2), le_refl, if_true, clAdj_real, neg_neg]
      rw [show -(Real.pi / 2) + Real.pi = Real.pi / 2 by ring, viterna_90, viterna_90]
    · simp only [cdBefore, le_refl, if_true, neg_neg]
      rw [show -(Real.pi / 2) + Real.pi = Real.pi / 2 by ring, viterna_90, viterna_90]

/-- All rows before the data lie on the curves. -/
theorem before_row (v : VitPar ℝ) (e : Ends ℝ) (he : e.Good) (n : ℕ) (hn : 2 ≤ n) (r : ExtRow ℝ) (hr : r ∈ extBefore v e n) :
    -Real.pi ≤ r.alpha ∧ r.alpha ≤ e.alphaLow ∧ r.cl = clBefore v e r.alpha ∧ r.cd = cdBefore v e r.alpha := by
  have hp := he.pos
  have hl := he.lt
  have hw := he.low
  have h5 := alpha5max_ge e he
  have h5' := (alpha5max_le e).1
  simp only [extBefore, List.mem_append] at hr
  rcases hr with ((hr | hr) | hr) | hr
  · have h := ext7_row v e he n hn r hr
    exact ⟨h.1, by linarith [h.2.1], h.2.2⟩
  · have h := ext6_row v e he n hn r hr
    exact ⟨by linarith [h.1], by linarith [h.2.1], h.2.2⟩
  · have h := ext5_row' v e he n hn r hr
    exact ⟨by linarith [h.1], by linarith [h.2.1], h.2.2⟩
  · have h := ext4_row v e he n hn r hr
    exact ⟨by linarith [h.1], by linarith [h.2.1], h.2.2⟩

/-- All rows after the data lie on the curves. -/
theorem after_row (v : VitPar ℝ) (e : Ends ℝ) (he : e.Good) (n : ℕ) (hn : 2 ≤ n) (r : ExtRow ℝ) (hr : r ∈ extAfter v e n) :
    e.alphaHigh < r.alpha ∧ r.alpha ≤ Real.pi ∧ r.cl = clAfter v e r.alpha ∧ r.cd = cdAfter v r.alpha := by
  have hp := he.pos
  have hl := he.lt
  simp only [extAfter, List.mem_append] at hr
  rcases hr with (hr | hr) | hr
  · have h := ext1_row v e he n hn r hr
    exact ⟨h.1, by linarith [h.2.1], h.2.2⟩
  · have h := ext2_row v e he n hn r hr
    exact ⟨by linarith [h.1], by linarith [h.2.1], h.2.2⟩
  · have h := ext3_row v e he n hn r hr
    exact ⟨by linarith [h.1], by linarith [h.2.1], h.2.2⟩

/-! ## Order of the blocks -/

theorem map_alpha {β : Type} (l : List ℝ) (f : ℝ → ExtRow ℝ) (h : ∀ a, (f a).alpha = a) : (l.map f).map ExtRow.alpha = l := by
  rw [List.map_map]
  conv_rhs => rw [← List.map_id l]
  exact List.map_congr_left fun a _ => h a

theorem before_strict (v : VitPar ℝ) (e : Ends ℝ) (he : e.Good) (h4 : -e.alphaHigh < e.alphaLow) (n : ℕ) (hn : 2 ≤ n) :
    ((extBefore v e n).map ExtRow.alpha).Pairwise (· < ·) ∧ ∀ a ∈ (extBefore v e n).map ExtRow.alpha, a < e.alphaLow := by
  have hp := he.pos
  have hl := he.lt
  have hw := he.low
  have h5e : alpha5max e = -e.alphaHigh := by simp [alpha5max, not_le.mpr h4]
  have h5 : -(Real.pi / 2) < alpha5max e := by rw [h5e]; linarith
  have s7 : ((ext7 v e n).map ExtRow.alpha).Pairwise (· < ·) := by
    rw [ext7, map_alpha (β := ℝ) _ _ fun _ => rfl]
    exact linspace_strict _ _ n hn (by simp only [num_real]; linarith)
  have s6 : ((ext6 v e n).map ExtRow.alpha).Pairwise (· < ·) := by
    rw [ext6, map_alpha (β := ℝ) _ _ fun _ => rfl, neg_pi_div]
    exact (linspace_strict _ _ n hn (by simp only [num_real]; linarith)).drop
  have s5 : ((ext5 v e n).map ExtRow.alpha).Pairwise (· < ·) := by
    rw [ext5, map_alpha (β := ℝ) _ _ fun _ => rfl, neg_pi_div]
    exact (linspace_strict _ _ n hn h5).drop
  have s4 : ((ext4 e n).map ExtRow.alpha).Pairwise (· < ·) := by
    rw [ext4, if_neg (not_le.mpr h4), map_alpha (β := ℝ) _ _ fun _ => rfl]
    exact ((linspace_strict _ _ n hn h4).take).drop
  have hmem : ∀ (l : List (ExtRow ℝ)) (P : ℝ → Prop), (∀ r ∈ l, P r.alpha) → ∀ a ∈ l.map ExtRow.alpha, P a := by
    intro l P h a ha
    obtain ⟨r, hr, rfl⟩ := List.mem_map.mp ha
    exact h r hr
  have b7 := hmem _ (fun a => a ≤ -Real.pi + e.alphaHigh) fun r hr => (ext7_row v e he n hn r hr).2.1
  have b6 := hmem _ (fun a => -Real.pi + e.alphaHigh < a ∧ a ≤ -(Real.pi / 2)) fun r hr =>
    ⟨(ext6_row v e he n hn r hr).1, (ext6_row v e he n hn r hr).2.1⟩
  have b5 := hmem _ (fun a => -(Real.pi / 2) < a ∧ a ≤ alpha5max e) fun r hr =>
    ⟨(ext5_row v e he n hn r hr h5).1, (ext5_row v e he n hn r hr h5).2.1⟩
  have b4 := hmem _ (fun a => alpha5max e < a ∧ a < e.alphaLow) fun r hr =>
    ⟨(ext4_row v e he n hn r hr).1, (ext4_row v e he n hn r hr).2.1⟩
  simp only [extBefore, List.map_append]
  refine ⟨?_, fun a ha => ?_⟩
  · refine List.pairwise_append.mpr ⟨List.pairwise_append.mpr ⟨List.pairwise_append.mpr ⟨s7, s6, ?_⟩, s5, ?_⟩, s4, ?_⟩
    · intro a ha b hb
      linarith [b7 a ha, (b6 b hb).1]
    · intro a ha b hb
      rcases List.mem_append.mp ha with ha | ha
      · linarith [b7 a ha, (b5 b hb).1]
      · linarith [(b6 a ha).2, (b5 b hb).1]
    · intro a ha b hb
      rcases List.mem_append.mp ha with ha | ha
      · rcases List.mem_append.mp ha with ha | ha
        · linarith [b7 a ha, (b4 b hb).1]
        · linarith [(b6 a ha).2, (b4 b hb).1]
      · linarith [(b5 a ha).2, (b4 b hb).1]
  · rcases List.mem_append.mp ha with ha | ha
    · rcases List.mem_append.mp ha with ha | ha
      · rcases List.mem_append.mp ha with ha | ha
        · linarith [b7 a ha]
        · linarith [(b6 a ha).2]
      · linarith [(b5 a ha).2]
    · exact (b4 a ha).2

theorem after_strict (v : VitPar ℝ) (e : Ends ℝ) (he : e.Good) (n : ℕ) (hn : 2 ≤ n) :
    ((extAfter v e n).map ExtRow.alpha).Pairwise (· < ·) ∧ ∀ a ∈ (extAfter v e n).map ExtRow.alpha, e.alphaHigh < a := by
  have hp := he.pos
  have hl := he.lt
  have s1 : ((ext1 v e n).map ExtRow.alpha).Pairwise (· < ·) := by
    rw [ext1, map_alpha (β := ℝ) _ _ fun _ => rfl]
    exact (linspace_strict _ _ n hn (by simp only [num_real, Nat.cast_ofNat]; linarith)).drop
  have s2 : ((ext2 v e n).map ExtRow.alpha).Pairwise (· < ·) := by
    rw [ext2, map_alpha (β := ℝ) _ _ fun _ => rfl]
    exact (linspace_strict _ _ n hn (by simp only [num_real, Nat.cast_ofNat]; linarith)).drop
  have s3 : ((ext3 v e n).map ExtRow.alpha).Pairwise (· < ·) := by
    rw [ext3, map_alpha (β := ℝ) _ _ fun _ => rfl]
    exact (linspace_strict _ _ n hn (by simp only [num_real]; linarith)).drop
  have hmem : ∀ (l : List (ExtRow ℝ)) (P : ℝ → Prop), (∀ r ∈ l, P r.alpha) → ∀ a ∈ l.map ExtRow.alpha, P a := by
    intro l P h a ha
    obtain ⟨r, hr, rfl⟩ := List.mem_map.mp ha
    exact h r hr
  have b1 := hmem _ (fun a => e.alphaHigh < a ∧ a ≤ Real.pi / 2) fun r hr =>
    ⟨(ext1_row v e he n hn r hr).1, (ext1_row v e he n hn r hr).2.1⟩
  have b2 := hmem _ (fun a => Real.pi / 2 < a ∧ a ≤ Real.pi - e.alphaHigh) fun r hr =>
    ⟨(ext2_row v e he n hn r hr).1, (ext2_row v e he n hn r hr).2.1⟩
  have b3 := hmem _ (fun a => Real.pi - e.alphaHigh < a) fun r hr => (ext3_row v e he n hn r hr).1
  simp only [extAfter, List.map_append]
  refine ⟨?_, fun a ha => ?_⟩
  · refine List.pairwise_append.mpr ⟨List.pairwise_append.mpr ⟨s1, s2, ?_⟩, s3, ?_⟩
    · intro a ha b hb
      linarith [(b1 a ha).2, (b2 b hb).1]
    · intro a ha b hb
      rcases List.mem_append.mp ha with ha | ha
      · linarith [(b1 a ha).2, b3 b hb]
      · linarith [(b2 a ha).2, b3 b hb]
  · rcases List.mem_append.mp ha with ha | ha
    · rcases List.mem_append.mp ha with ha | ha
      · exact (b1 a ha).1
      · linarith [(b2 a ha).1]
    · linarith [b3 a ha]

/-! ## The result of `extrapolate` -/

/-- The ends of a polar. -/
structure Polar.Rim (p : Polar ℝ) (L H : ℝ) (e : Ends ℝ) (cmH : ℝ) : Prop where
  first : p.alpha.head? = some L
  last : p.alpha.getLast? = some H
  low : e.alphaLow = deg2rad L
  high : e.alphaHigh = deg2rad H
  cl0 : p.cl.head? = some e.clLow
  cd0 : p.cd.head? = some e.cdLow
  cl1 : p.cl.getLast? = some e.clHigh
  cd1 : p.cd.getLast? = some e.cdHigh
  cm1 : p.cm.getLast? = some cmH

theorem exists_head {β : Type} (l : List β) (h : l ≠ []) : ∃ a, l.head? = some a := by
  cases l with
  | nil => exact absurd rfl h
  | cons a l => exact ⟨a, rfl⟩

theorem exists_last {β : Type} (l : List β) (h : l ≠ []) : ∃ a, l.getLast? = some a := by
  cases hl : l.getLast? with
  | none => rw [List.getLast?_eq_none_iff] at hl; exact absurd hl h
  | some a => exact ⟨a, rfl⟩

theorem Polar.WF.col_ne {p : Polar ℝ} (hp : p.WF) (c : Col) : p.col c ≠ [] := by
  intro h
  have := hp.len c
  rw [h] at this
  exact hp.ne (List.length_eq_zero_iff.mp this.symm)

theorem exists_rim (p : Polar ℝ) (hp : p.WF) : ∃ L H e cmH, p.Rim L H e cmH := by
  obtain ⟨L, hL⟩ := exists_head p.alpha hp.ne
  obtain ⟨H, hH⟩ := exists_last p.alpha hp.ne
  obtain ⟨cl0, h1⟩ := exists_head p.cl (hp.col_ne .cl)
  obtain ⟨cd0, h2⟩ := exists_head p.cd (hp.col_ne .cd)
  obtain ⟨cl1, h3⟩ := exists_last p.cl (hp.col_ne .cl)
  obtain ⟨cd1, h4⟩ := exists_last p.cd (hp.col_ne .cd)
  obtain ⟨cm1, h5⟩ := exists_last p.cm (hp.col_ne .cm)
  exact ⟨L, H, ⟨deg2rad H, cl1, cd1, deg2rad L, cl0, cd0⟩, cm1, hL, hH, rfl, rfl, h1, h2, h3, h4, h5⟩

theorem pyFirst_of {β : Type} {l : List β} {a : β} (h : l.head? = some a) : pyFirst l = .ok a := by
  cases l with
  | nil => simp at h
  | cons b l => simpa [pyFirst] using h

theorem pyLast_of {β : Type} {l : List β} {a : β} (h : l.getLast? = some a) : pyLast l = .ok a := by simp [pyLast, h]

/-- The drag at 90 degrees used for a polar. -/
noncomputable def effCdmax (p : Polar ℝ) (cdmax : ℝ) (AR : Option ℝ) : ℝ :=
  max (p.cd.foldl max (p.cd.headD 0)) (match AR with
    | some ar => 111 / 100 + 18 / 1000 * ar
    | none => cdmax)

theorem pyMax_ok (l : List ℝ) (h : l ≠ []) : pyMax l = .ok (l.foldl max (l.headD 0)) := by
  cases l with
  | nil => exact absurd rfl h
  | cons a l =>
    simp only [pyMax, List.headD_cons, List.foldl_cons, max_self]
    congr 1
    have : (nmax : ℝ → ℝ → ℝ) = max := by funext x y; exact real_nmax x y
    rw [this]

/-- The moment table, when it can be computed. -/
theorem cmExtTable_ok (p : Polar ℝ) (hp : p.WF) (e : Ends ℝ) (L H cmH : ℝ) (ea ecl ecd : List ℝ) (hea : ea ≠ [])
    (h1 : ecl.length = ea.length) (h2 : ecd.length = ea.length) (g2 : List ℝ) (hg : cmGridHigh H = .ok g2)
    (hc : 2 ≤ p.alpha.length ∨ ∀ c ∈ p.cm, c = 0) :
    ∃ outs : List (CmOut ℝ), outs.length = (cmGridLow L).length + p.alpha.length + g2.length ∧
      (∃ cmC cm0 : ℝ, ∀ (i : ℕ) (a : ℝ) (o : CmOut ℝ), (cmGridLow L ++ p.alpha ++ g2)[i]? = some a → outs[i]? = some o →
        (∃ cl cd, o = getCM cmC cm0 L H a cl cd) ∨ (o = .keep ∧ ∀ c ∈ p.cm, c = 0)) ∧
      cmExtTable p e L H cmH ea ecl ecd = .ok (cmGridLow L ++ p.alpha ++ g2,
        List.zipWith (fun o old => CmOut.update o old) outs
          (List.replicate (cmGridLow L).length 0 ++ p.cm ++ List.replicate g2.length 0)) := by
  have hlen : p.cm.length = p.alpha.length := hp.len .cm
  by_cases hz : ∀ c ∈ p.cm, c = 0
  · refine ⟨List.replicate ((cmGridLow L).length + p.alpha.length + g2.length) .keep, by simp, ⟨0, 0, ?_⟩, ?_⟩
    · intro i a o _ ho
      exact .inr ⟨List.eq_of_mem_replicate (List.mem_of_getElem? ho), hz⟩
    · unfold cmExtTable
      rw [hg]
      have hany : p.cm.any (fun c => !(c == 0)) = false := by
        rw [List.any_eq_false]
        intro c hcm
        have := hz c hcm
        subst this
        have h0 : ((0 : ℝ) == 0) = true := by rw [real_beq]; simp
        simp
      simp only [bind, Except.bind, hany, Bool.false_eq_true, if_false, pure, Except.pure]
      congr 2
      apply List.ext_getElem
      · simp [hlen, Nat.add_assoc]
      · intro i h3 h4
        simp [CmOut.update]
  · have h2' : 2 ≤ p.alpha.length := by
      rcases hc with h | h
      · exact h
      · exact absurd h hz
    obtain ⟨a1, a2, ta, hta⟩ : ∃ a b t, p.alpha = a :: b :: t := by
      match h : p.alpha with
      | [] => rw [h] at h2'; simp at h2'
      | [_] => rw [h] at h2'; simp at h2'
      | a :: b :: t => exact ⟨a, b, t, rfl⟩
    have hlcl : p.cl.length = p.alpha.length := hp.len .cl
    obtain ⟨b1, b2, tb, htb⟩ : ∃ a b t, p.cl = a :: b :: t := by
      match h : p.cl with
      | [] => rw [h, hta] at hlcl; simp at hlcl
      | [_] => rw [h, hta] at hlcl; simp at hlcl
      | a :: b :: t => exact ⟨a, b, t, rfl⟩
    obtain ⟨c1, c2, tc, htc⟩ : ∃ a b t, p.cm = a :: b :: t := by
      match h : p.cm with
      | [] => rw [h, hta] at hlen; simp at hlen
      | [_] => rw [h, hta] at hlen; simp at hlen
      | a :: b :: t => exact ⟨a, b, t, rfl⟩
    obtain ⟨cm0, hcm0⟩ : ∃ c, cmZero (p.alpha.zip (p.cl.zip p.cm)) = .ok c := by
      unfold cmZero
      cases hzl : zeroLiftCm (p.alpha.zip (p.cl.zip p.cm)) with
      | some c => exact ⟨c, rfl⟩
      | none => rw [hta, htb, htc]; exact ⟨_, rfl⟩
    have hany : p.cm.any (fun c => !(c == 0)) = true := by
      push Not at hz
      obtain ⟨c, hc1, hc2⟩ := hz
      rw [List.any_eq_true]
      refine ⟨c, hc1, ?_⟩
      have : (c == (0 : ℝ)) = false := by rw [real_beq]; simpa using hc2
      simpa using hc2
    set grid := cmGridLow L ++ p.alpha ++ g2 with hgrid
    refine ⟨List.zipWith (fun a (c : ℝ × ℝ) => getCM (cmCoeff e cmH cm0) cm0 L H a c.1 c.2) grid
      ((grid.map (interpVal ea ecl)).zip (grid.map (interpVal ea ecd))), by simp [hgrid, Nat.add_assoc],
      ⟨cmCoeff e cmH cm0, cm0, ?_⟩, ?_⟩
    · intro i a o ha ho
      left
      rw [List.getElem?_zipWith_eq_some] at ho
      obtain ⟨a', c, ha', _, rfl⟩ := ho
      rw [ha] at ha'
      obtain rfl := Option.some.inj ha'
      exact ⟨_, _, rfl⟩
    · unfold cmExtTable
      rw [hg]
      simp only [bind, Except.bind, hany, if_true, pure, Except.pure, hcm0]
      rw [npInterps_ok _ _ ecl h1 hea, npInterps_ok _ _ ecd h2 hea]

/-- The rows of the result, without the moments. -/
noncomputable def extPolar (p : Polar ℝ) (v : VitPar ℝ) (e : Ends ℝ) (cdmin : ℝ) (n : ℕ) (cm : List ℝ) : Polar ℝ :=
  ⟨p.Re, (extBefore v e n).map (fun r => rad2deg r.alpha) ++ p.alpha ++ (extAfter v e n).map (fun r => rad2deg r.alpha),
    (extBefore v e n).map ExtRow.cl ++ p.cl ++ (extAfter v e n).map ExtRow.cl,
    (extBefore v e n).map (fun r => max r.cd cdmin) ++ p.cd.map (fun c => max c cdmin) ++
      (extAfter v e n).map (fun r => max r.cd cdmin), cm⟩

theorem trunc_int (k : ℤ) : Num.trunc ((k : ℤ) : ℝ) = k := by
  simp [num_real]

theorem steps_of_ten (c : ℝ) (m : ℕ) (hm : 2 ≤ m) (b : ℝ) (hb : b = c + 10 * (m - 1)) :
    npLinspace c b m = (List.range m).map fun i : ℕ => c + 10 * i := by
  rw [linspace_eq _ _ m hm]
  refine List.map_congr_left fun i _ => ?_
  have hpos : (0 : ℝ) < m - 1 := by
    have : (2 : ℝ) ≤ m := by exact_mod_cast hm
    linarith
  rw [hb]
  field_simp
  ring

/-- Below the data, moments are tabulated at the multiples of ten from -180 up to the last one not above the data. -/
theorem cmGridLow_eq (L : ℝ) (h : -90 ≤ L) :
    cmGridLow L = (List.range (⌊L / 10⌋ + 19).toNat).map fun i : ℕ => -180 + 10 * (i : ℝ) := by
  have hf : (-9 : ℤ) ≤ ⌊L / 10⌋ := Int.le_floor.mpr (by push_cast; linarith)
  unfold cmGridLow
  simp only [real_nat, real_floor]
  push_cast
  rw [show ((-180 - (⌊L / 10⌋ : ℝ) * 10) / 10 - 1 : ℝ) = ((-19 - ⌊L / 10⌋ : ℤ) : ℝ) by push_cast; ring, trunc_int]
  rw [show (-19 - ⌊L / 10⌋).natAbs = (⌊L / 10⌋ + 19).toNat by omega]
  refine steps_of_ten _ _ (by omega) _ ?_
  have : (((⌊L / 10⌋ + 19).toNat : ℕ) : ℝ) = (⌊L / 10⌋ : ℝ) + 19 := by
    have h1 : (((⌊L / 10⌋ + 19).toNat : ℕ) : ℤ) = ⌊L / 10⌋ + 19 := Int.toNat_of_nonneg (by omega)
    exact_mod_cast h1
  rw [this]
  ring

/-- Above the data, moments are tabulated at the multiples of ten from the first one not below the data up to 180. -/
theorem cmGridHigh_eq (H : ℝ) (h : H ≤ 90) :
    cmGridHigh H = .ok ((List.range (19 - ⌈H / 10⌉).toNat).map fun i : ℕ => 10 * (⌈H / 10⌉ : ℝ) + 10 * (i : ℝ)) := by
  have hf : ⌈H / 10⌉ ≤ 9 := Int.ceil_le.mpr (by push_cast; linarith)
  have hk : Num.trunc ((Num.nat 180 - nceil (H / Num.nat 10) * Num.nat 10) / Num.nat 10 + 1 : ℝ) = 19 - ⌈H / 10⌉ := by
    simp only [nceil, real_nat, real_floor, Int.floor_neg]
    push_cast
    rw [show ((180 - - -(⌈H / 10⌉ : ℝ) * 10) / 10 + 1 : ℝ) = ((19 - ⌈H / 10⌉ : ℤ) : ℝ) by push_cast; ring, trunc_int]
  unfold cmGridHigh
  simp only [hk]
  rw [if_neg (by omega)]
  congr 1
  simp only [nceil, real_nat, real_floor, Int.floor_neg]
  push_cast
  rw [show (- -(⌈H / 10⌉ : ℝ) * 10 : ℝ) = 10 * (⌈H / 10⌉ : ℝ) by ring]
  refine steps_of_ten _ _ (by omega) _ ?_
  have : (((19 - ⌈H / 10⌉).toNat : ℕ) : ℝ) = 19 - (⌈H / 10⌉ : ℝ) := by
    have h1 : (((19 - ⌈H / 10⌉).toNat : ℕ) : ℤ) = 19 - ⌈H / 10⌉ := Int.toNat_of_nonneg (by omega)
    exact_mod_cast h1
  rw [this]
  ring

theorem extrapolate_ok (p : Polar ℝ) (hp : p.WF) (L H cmH : ℝ) (e : Ends ℝ) (hr : p.Rim L H e cmH) (cdmax : ℝ) (AR : Option ℝ)
    (cdmin : ℝ) (n : ℕ) (h0 : 0 ≤ cdmin) (hH : H ≤ 90) (hL : -90 ≤ L) (hc : 2 ≤ p.alpha.length ∨ ∀ c ∈ p.cm, c = 0) :
    ∃ (g2 : List ℝ) (outs : List (CmOut ℝ)), cmGridHigh H = .ok g2 ∧
      outs.length = (cmGridLow L).length + p.alpha.length + g2.length ∧
      (∃ cmC cm0 : ℝ, ∀ (i : ℕ) (a : ℝ) (o : CmOut ℝ), (cmGridLow L ++ p.alpha ++ g2)[i]? = some a → outs[i]? = some o →
        (∃ cl cd, o = getCM cmC cm0 L H a cl cd) ∨ (o = .keep ∧ ∀ c ∈ p.cm, c = 0)) ∧
      p.extrapolate cdmax AR cdmin n = .ok (extPolar p (vitPar e (effCdmax p cdmax AR)) e cdmin n
        (((extBefore (vitPar e (effCdmax p cdmax AR)) e n).map (fun r => rad2deg r.alpha) ++ p.alpha ++
          (extAfter (vitPar e (effCdmax p cdmax AR)) e n).map (fun r => rad2deg r.alpha)).map
          (interpVal (cmGridLow L ++ p.alpha ++ g2) (List.zipWith (fun o old => CmOut.update o old) outs
          (List.replicate (cmGridLow L).length 0 ++ p.cm ++ List.replicate g2.length 0))))) := by
  obtain ⟨g2, hg2⟩ : ∃ g2, cmGridHigh H = .ok g2 := ⟨_, cmGridHigh_eq H hH⟩
  set cdm := effCdmax p cdmax AR with hcdm
  set v := vitPar e cdm with hv
  have hcl : p.cl.length = p.alpha.length := hp.len .cl
  have hcd : p.cd.length = p.alpha.length := hp.len .cd
  have hcm : p.cm.length = p.alpha.length := hp.len .cm
  have hE : (⟨deg2rad H, e.clHigh, e.cdHigh, deg2rad L, e.clLow, e.cdLow⟩ : Ends ℝ) = e := by
    rw [← hr.low, ← hr.high]
  have hdeg : (((extBefore v e n).map ExtRow.alpha ++ p.alpha.map deg2rad ++ (extAfter v e n).map ExtRow.alpha).map rad2deg) =
      (extBefore v e n).map (fun r => rad2deg r.alpha) ++ p.alpha ++ (extAfter v e n).map (fun r => rad2deg r.alpha) := by
    simp only [List.map_append, List.map_map]
    congr 2
    conv_rhs => rw [← List.map_id p.alpha]
    exact List.map_congr_left fun a _ => rad_deg a
  have hcdmap : (((extBefore v e n).map ExtRow.cd ++ p.cd ++ (extAfter v e n).map ExtRow.cd).map (fun c => npMaximum c cdmin)) =
      (extBefore v e n).map (fun r => max r.cd cdmin) ++ p.cd.map (fun c => max c cdmin) ++
      (extAfter v e n).map (fun r => max r.cd cdmin) := by
    simp only [List.map_append, List.map_map, real_npMaximum]
    rfl
  set ea := (extBefore v e n).map (fun r => rad2deg r.alpha) ++ p.alpha ++ (extAfter v e n).map (fun r => rad2deg r.alpha) with hea
  obtain ⟨outs, ho1, ho2, ho3⟩ := cmExtTable_ok p hp e L H cmH ea ((extBefore v e n).map ExtRow.cl ++ p.cl ++ (extAfter v e n).map ExtRow.cl)
    ((extBefore v e n).map (fun r => max r.cd cdmin) ++ p.cd.map (fun c => max c cdmin) ++
      (extAfter v e n).map (fun r => max r.cd cdmin)) (by simp [hea, hp.ne]) (by simp [hea, hcl]) (by simp [hea, hcd]) g2 hg2 hc
  refine ⟨g2, outs, hg2, ho1, ho2, ?_⟩
  have hx : npInterps ea (cmGridLow L ++ p.alpha ++ g2) (List.zipWith (fun o old => CmOut.update o old) outs
      (List.replicate (cmGridLow L).length 0 ++ p.cm ++ List.replicate g2.length 0)) =
      .ok (ea.map (interpVal (cmGridLow L ++ p.alpha ++ g2) (List.zipWith (fun o old => CmOut.update o old) outs
      (List.replicate (cmGridLow L).length 0 ++ p.cm ++ List.replicate g2.length 0)))) :=
    npInterps_ok _ _ _ (by simp [ho1, hcm, Nat.add_assoc]) (by simp [hp.ne])
  have e1 : ¬ ((Num.pi : ℝ) / Num.nat 2 < deg2rad H) := by
    have := deg2rad_le hH
    rw [deg2rad_90] at this
    simp only [real_pi, real_nat, Nat.cast_ofNat]
    exact not_lt.mpr this
  have e2 : ¬ (deg2rad L < -(Num.pi : ℝ) / Num.nat 2) := by
    have := deg2rad_le hL
    rw [deg2rad_neg, deg2rad_90] at this
    rw [neg_pi_div]
    exact not_lt.mpr this
  have hmax : nmax (p.cd.foldl max (p.cd.headD 0)) (cdmaxAR cdmax AR) = cdm := by
    rw [hcdm, real_nmax]
    unfold effCdmax
    cases AR <;> simp only [cdmaxAR, num_real, Nat.cast_ofNat]
  unfold Polar.extrapolate
  rw [pyMax_ok p.cd (hp.col_ne .cd), pyLast_of hr.last, pyLast_of hr.cl1, pyLast_of hr.cd1, pyLast_of hr.cm1, pyFirst_of hr.first,
    pyFirst_of hr.cl0, pyFirst_of hr.cd0]
  simp only [bind, Except.bind, pure, Except.pure, if_neg (not_lt.mpr h0), if_neg e1, if_neg e2]
  rw [hmax, hE, ← hv, hdeg, hcdmap, ho3]
  simp only []
  rw [hx]
  rfl

end Verif
