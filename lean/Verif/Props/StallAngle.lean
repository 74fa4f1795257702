import Verif.Props.StallParam
import Verif.Props.Moments

/-!
# The stall angle of `Polar.unsteadyparam` (C94)
-/

namespace Verif

theorem curve_sorted (p : Polar ℝ) (hwf : p.WF) : (p.alpha.map (deg2rad : ℝ → ℝ)).Pairwise (· < ·) := by
  have hpi : 0 < Real.pi / 180 := by positivity
  rw [List.pairwise_map]
  refine hwf.inc.imp fun h => ?_
  simp only [real_deg2rad]
  exact mul_lt_mul_of_pos_right h hpi

theorem curve_value (p : Polar ℝ) (hwf : p.WF) (a : ℝ) (h : p.Covers a) :
    OnPolyline (normalForceCurve p.alpha p.cl p.cd) (a * (Real.pi / 180))
      (interpVal (p.alpha.map deg2rad) (cnOf (p.alpha.map deg2rad) p.cl p.cd) (a * (Real.pi / 180))) := by
  have hpi : 0 < Real.pi / 180 := by positivity
  rw [← normalForceCurve_eq]
  obtain ⟨⟨x, hx, h1⟩, ⟨y, hy, h2⟩⟩ := h
  refine interpVal_onPolyline _ _ ?_ (curve_sorted p hwf) _ ⟨_, List.mem_map_of_mem hx, ?_⟩ ⟨_, List.mem_map_of_mem hy, ?_⟩
  · have h1 : p.cl.length = p.alpha.length := hwf.len .cl
    have h2 : p.cd.length = p.alpha.length := hwf.len .cd
    simp [cnOf, h1, h2]
  · simp only [real_deg2rad]
    exact mul_le_mul_of_nonneg_right h1 hpi.le
  · simp only [real_deg2rad]
    exact mul_le_mul_of_nonneg_right h2 hpi.le

theorem covers_between {p : Polar ℝ} {a b x : ℝ} (ha : p.Covers a) (hb : p.Covers b) (h1 : a ≤ x) (h2 : x ≤ b) : p.Covers x := by
  obtain ⟨⟨y, hy, hya⟩, -⟩ := ha
  obtain ⟨-, z, hz, hbz⟩ := hb
  exact ⟨⟨y, hy, by linarith⟩, z, hz, by linarith⟩

/-- **C94** (partial) The stall angle, for a table that covers -39 to 39 degrees: let `c i` be the normal force of the table at `i`
degrees (`i = 0, …, 39`) and `c' i` the one at `5 - i` degrees (`i = 0, …, 44`).  The stall angle is a point where the amount by which
the normal force falls short of the fitted line reaches 0.05, taken linear from degree to degree; the lower stall force is the value of
the line at such a point of the lower side.  Missing: it is not always the first such point (`unsteadyparam_first_false`). -/
theorem unsteadyparam_stall_partial (fit : PolyFit ℝ) (p : Polar ℝ) (lo hi : ℝ) (u : UnsteadyParam ℝ) (hwf : p.WF)
    (hlo : p.Covers (-39)) (hhi : p.Covers 39)
    (hr : 10 ≤ p.alpha.length) (hl : 10 ≤ p.cl.toFinset.card) (h : p.unsteadyparam fit lo hi = .ok u) :
    ∃ m b, fit (normalForcePoints lo hi p.alpha p.cl p.cd) = .ok (m, b) ∧ (m ≠ 0 → ∃ (c c' : ℕ → ℝ) (sL : ℝ),
      (∀ i : ℕ, i < 40 → OnPolyline (normalForceCurve p.alpha p.cl p.cd) (i * (Real.pi / 180)) (c i)) ∧
      (∀ i : ℕ, i < 45 → OnPolyline (normalForceCurve p.alpha p.cl p.cd) ((5 - i) * (Real.pi / 180)) (c' i)) ∧
      ReachedAt 40 (fun i => m * (i * (Real.pi / 180)) + b - c i) (1 / 20) u.stallAngle ∧
      ReachedAt 45 (fun i => c' i - (m * ((5 - i) * (Real.pi / 180)) + b)) (1 / 20) sL ∧
      u.cnStallUpper = m * (u.stallAngle * (Real.pi / 180)) + b ∧ u.cnStallLower = m * ((5 - sL) * (Real.pi / 180)) + b) := by
  obtain ⟨m, b, sU, sL, i, x, d, hfit, -, hU, hL, hi', hx, hd, rfl⟩ := unsteadyparam_inv hr hl h
  refine ⟨m, b, hfit, fun hm => ⟨_, _, sL, fun i hi => curve_value p hwf i ?_, fun i hi => curve_value p hwf (5 - i) ?_, ?_, ?_, ?_, ?_⟩⟩
  · have : (i : ℝ) ≤ 39 := by exact_mod_cast (by omega : i ≤ 39)
    exact covers_between hlo hhi (by linarith [(Nat.cast_nonneg i : (0 : ℝ) ≤ i)]) this
  · have : (i : ℝ) ≤ 44 := by exact_mod_cast (by omega : i ≤ 44)
    exact covers_between hlo hhi (by linarith) (by linarith [(Nat.cast_nonneg i : (0 : ℝ) ≤ i)])
  · convert hU using 2 with i
    unfold devUpper
    field_simp
    ring
  · convert hL using 2 with i
    unfold devLower
    field_simp
    ring
  · field_simp
    ring
  · field_simp
    ring

/-- **C94** (partial) If the normal force stays within 0.05 of the line up to `k` degrees and below by more than that from `k + 1`
degrees on, the stall angle is the point between the two where the deviation is 0.05. -/
theorem unsteadyparam_stall_first_partial (fit : PolyFit ℝ) (p : Polar ℝ) (lo hi : ℝ) (u : UnsteadyParam ℝ) (hwf : p.WF)
    (hlo : p.Covers (-39)) (hhi : p.Covers 39)
    (hr : 10 ≤ p.alpha.length) (hl : 10 ≤ p.cl.toFinset.card) (h : p.unsteadyparam fit lo hi = .ok u) (m b : ℝ) (hm : m ≠ 0)
    (hf : fit (normalForcePoints lo hi p.alpha p.cl p.cd) = .ok (m, b)) (c : ℕ → ℝ)
    (hc : ∀ i : ℕ, i < 40 → OnPolyline (normalForceCurve p.alpha p.cl p.cd) (i * (Real.pi / 180)) (c i)) (k : ℕ) (t : ℝ) (hk : k < 39)
    (hle : ∀ i : ℕ, i ≤ k → m * (i * (Real.pi / 180)) + b - c i ≤ 1 / 20)
    (hgt : ∀ i : ℕ, k < i → i < 40 → 1 / 20 < m * (i * (Real.pi / 180)) + b - c i)
    (ht : (1 - t) * (m * (k * (Real.pi / 180)) + b - c k) + t * (m * ((k + 1 : ℕ) * (Real.pi / 180)) + b - c (k + 1)) = 1 / 20) :
    u.stallAngle = k + t := by
  obtain ⟨m', b', hf', hu⟩ := unsteadyparam_stall_partial fit p lo hi u hwf hlo hhi hr hl h
  rw [hf, Except.ok.injEq, Prod.mk.injEq] at hf'
  obtain ⟨rfl, rfl⟩ := hf'
  obtain ⟨c', -, sL, h1, -, h2, -⟩ := hu hm
  have hsort : ((normalForceCurve p.alpha p.cl p.cd).map Prod.fst).Pairwise (· < ·) := by
    rw [← normalForceCurve_eq, List.map_fst_zip]
    · exact curve_sorted p hwf
    · have h1 : p.cl.length = p.alpha.length := hwf.len .cl
      have h2 : p.cd.length = p.alpha.length := hwf.len .cd
      simp [cnOf, h1, h2]
  have hcc : ∀ i : ℕ, i < 40 → c' i = c i := fun i hi => OnPolyline.unique hsort (h1 i hi) (hc i hi)
  refine h2.unique k t (by omega) ?_ ?_ ?_
  · intro i hi
    rw [hcc i (by omega)]
    exact hle i hi
  · intro i h1 h2
    rw [hcc i h2]
    exact hgt i h1 h2
  · rw [hcc k (by omega), hcc (k + 1) (by omega)]
    linarith

/-! ## A normal force that dips and recovers -/

/-- The shortfall at `i` degrees: 0.1 from 6 to 8 degrees and from 30 degrees on. -/
noncomputable def dip (i : ℕ) : ℝ := if (6 ≤ i ∧ i ≤ 8) ∨ 30 ≤ i then 1 / 10 else 0

/-- Ten rows from -90 degrees and rows at each degree from -5 to 39.  In the latter the normal force is the angle (in radians) less
a given shortfall. -/
noncomputable def dipAngle (i : ℕ) : ℝ := if i < 10 then i - 90 else i - 15

noncomputable def dipLift (f : ℕ → ℝ) (i : ℕ) : ℝ :=
  if i < 10 then i else ((i - 15) * (Real.pi / 180) - f (i - 15)) / Real.cos ((i - 15) * (Real.pi / 180))

noncomputable def dipPolar (f : ℕ → ℝ) : Polar ℝ := ⟨1000000, arr 55 dipAngle, arr 55 (dipLift f), arr 55 fun _ => 0, arr 55 fun _ => 0⟩

theorem dipAngle_mono (i j : ℕ) (h : i < j) : dipAngle i < dipAngle j := by
  have hij : (i : ℝ) < j := by exact_mod_cast h
  unfold dipAngle
  split_ifs with h1 h2 h2
  · linarith
  · have : (10 : ℝ) ≤ j := by exact_mod_cast not_lt.mp h2
    linarith
  · omega
  · linarith

theorem dipPolar_wf (f : ℕ → ℝ) : (dipPolar f).WF := by
  refine ⟨by simp [dipPolar, arr], ?_, fun c => by cases c <;> simp [dipPolar, Polar.col, arr]⟩
  show (arr 55 dipAngle).Pairwise (· < ·)
  unfold arr
  rw [List.pairwise_map]
  exact List.pairwise_lt_range.imp fun h => dipAngle_mono _ _ h

theorem dipPolar_card (f : ℕ → ℝ) : 10 ≤ (dipPolar f).cl.toFinset.card := by
  have : ((Finset.range 10).image (fun i : ℕ => (i : ℝ))) ⊆ (dipPolar f).cl.toFinset := by
    intro x hx
    obtain ⟨i, hi, rfl⟩ := Finset.mem_image.mp hx
    have hi := Finset.mem_range.mp hi
    rw [List.mem_toFinset]
    refine List.mem_map.mpr ⟨i, List.mem_range.mpr (by omega), ?_⟩
    simp [dipLift, hi]
  have h := Finset.card_le_card this
  rwa [Finset.card_image_of_injective _ Nat.cast_injective, Finset.card_range] at h

theorem dip_cos (i : ℕ) (h1 : 10 ≤ i) (h2 : i < 55) : 0 < Real.cos (((i : ℝ) - 15) * (Real.pi / 180)) := by
  have hpi := Real.pi_pos
  have ha : (10 : ℝ) ≤ i := by exact_mod_cast h1
  have hb : (i : ℝ) ≤ 54 := by exact_mod_cast (by omega : i ≤ 54)
  apply Real.cos_pos_of_mem_Ioo
  constructor <;> nlinarith

/-- The normal force at the rows from -5 degrees on -/
theorem dip_cn (f : ℕ → ℝ) (i : ℕ) (h1 : 10 ≤ i) (h2 : i < 55) :
    (cnOf ((dipPolar f).alpha.map deg2rad) (dipPolar f).cl (dipPolar f).cd)[i]? = some (((i : ℝ) - 15) * (Real.pi / 180) - f (i - 15)) := by
  have hc := dip_cos i h1 h2
  unfold cnOf
  simp only [dipPolar]
  rw [arr_map, arr_zip, arr_zipWith, arr_getElem? 55 i _ h2]
  simp only [num_real, dipAngle, dipLift, if_neg (not_lt.mpr h1), real_deg2rad, zero_mul, add_zero]
  rw [div_mul_cancel₀ _ hc.ne']

theorem dip_points (f : ℕ → ℝ) (hf : ∀ i ≤ 5, f i = 0) : (∃ q q', q ∈ normalForcePoints (-5) 5 (dipPolar f).alpha (dipPolar f).cl (dipPolar f).cd ∧
    q' ∈ normalForcePoints (-5) 5 (dipPolar f).alpha (dipPolar f).cl (dipPolar f).cd ∧ q.1 ≠ q'.1) ∧
    ∀ q ∈ normalForcePoints (-5) 5 (dipPolar f).alpha (dipPolar f).cl (dipPolar f).cd, q.2 = q.1 := by
  have hpi := Real.pi_pos
  rw [← normalForcePoints_eq]
  have hal : ∀ i : ℕ, i < 55 → ((dipPolar f).alpha.map (deg2rad : ℝ → ℝ))[i]? = some (dipAngle i * (Real.pi / 180)) := by
    intro i hi
    simp only [dipPolar, arr_map, arr_getElem? 55 i _ hi, real_deg2rad]
  have hget : ∀ i : ℕ, 10 ≤ i → i < 55 → (((dipPolar f).alpha.map deg2rad).zip (cnOf ((dipPolar f).alpha.map deg2rad) (dipPolar f).cl (dipPolar f).cd))[i]? =
      some (((i : ℝ) - 15) * (Real.pi / 180), ((i : ℝ) - 15) * (Real.pi / 180) - f (i - 15)) := by
    intro i h1 h2
    rw [List.getElem?_zip_eq_some]
    exact ⟨by rw [hal i h2, dipAngle, if_neg (by omega)], dip_cn f i h1 h2⟩
  have hmem : ∀ i : ℕ, 10 ≤ i → i ≤ 20 → ((((i : ℝ) - 15) * (Real.pi / 180), ((i : ℝ) - 15) * (Real.pi / 180) - f (i - 15)) : ℝ × ℝ) ∈
      (((dipPolar f).alpha.map deg2rad).zip (cnOf ((dipPolar f).alpha.map deg2rad) (dipPolar f).cl (dipPolar f).cd)).filter
        (fun q => deg2rad (-5) ≤ q.1 ∧ q.1 ≤ deg2rad 5) := by
    intro i h1 h2
    have ha : (10 : ℝ) ≤ i := by exact_mod_cast h1
    have hb : (i : ℝ) ≤ 20 := by exact_mod_cast h2
    rw [List.mem_filter]
    refine ⟨List.mem_of_getElem? (hget i h1 (by omega)), ?_⟩
    simp only [real_deg2rad, decide_eq_true_eq]
    constructor <;> nlinarith
  refine ⟨⟨_, _, hmem 10 (by norm_num) (by norm_num), hmem 11 (by norm_num) (by norm_num), ?_⟩, ?_⟩
  · intro h
    simp only at h
    have := mul_right_cancel₀ (by positivity : Real.pi / 180 ≠ 0) h
    norm_num at this
  · intro q hq
    obtain ⟨hq, hr⟩ := List.mem_filter.mp hq
    obtain ⟨i, hi⟩ := List.mem_iff_getElem?.mp hq
    have hi55 : i < 55 := by
      have := (List.getElem?_eq_some_iff.mp hi).1
      simp [dipPolar, arr] at this
      omega
    simp only [real_deg2rad, decide_eq_true_eq] at hr
    have hfst := (List.getElem?_zip_eq_some.mp hi).1
    rw [hal i hi55, Option.some.injEq] at hfst
    rw [← hfst] at hr
    have h1 : (-5 : ℝ) ≤ dipAngle i := le_of_mul_le_mul_right hr.1 (by positivity)
    have h2 : dipAngle i ≤ (5 : ℝ) := le_of_mul_le_mul_right hr.2 (by positivity)
    have hi10 : 10 ≤ i := by
      by_contra h
      have h9 : (i : ℝ) ≤ 9 := by exact_mod_cast (by omega : i ≤ 9)
      rw [dipAngle, if_pos (by omega)] at h1
      linarith
    have hi20 : i ≤ 20 := by
      rw [dipAngle, if_neg (by omega)] at h2
      have : (i : ℝ) ≤ 20 := by linarith
      exact_mod_cast this
    rw [hget i hi10 hi55, Option.some.injEq] at hi
    rw [← hi]
    have : f (i - 15) = 0 := hf _ (by omega)
    simp [this]

theorem dip_dev (f : ℕ → ℝ) (i : ℕ) (hi : i < 40) : devUpper (dipPolar f) 1 0 i = f i := by
  have hpi : 0 < Real.pi / 180 := by positivity
  have hal : ∀ j : ℕ, j < 55 → ((dipPolar f).alpha.map (deg2rad : ℝ → ℝ))[j]? = some (dipAngle j * (Real.pi / 180)) := by
    intro j hj
    simp only [dipPolar, arr_map, arr_getElem? 55 j _ hj, real_deg2rad]
  have hlt : ∀ (j : ℕ) (z : ℝ), ((dipPolar f).alpha.map (deg2rad : ℝ → ℝ))[j]? = some z → j < 55 ∧ z = dipAngle j * (Real.pi / 180) := by
    intro j z hz
    have hj : j < 55 := by
      have := (List.getElem?_eq_some_iff.mp hz).1
      simpa [dipPolar, arr] using this
    rw [hal j hj, Option.some.injEq] at hz
    exact ⟨hj, hz.symm⟩
  have hA : dipAngle (i + 15) = i := by
    rw [dipAngle, if_neg (by omega)]
    push_cast
    ring
  have hv := interpVal_at ((dipPolar f).alpha.map deg2rad) (cnOf ((dipPolar f).alpha.map deg2rad) (dipPolar f).cl (dipPolar f).cd) (i + 15)
    (i * (Real.pi / 180)) (i * (Real.pi / 180) - f i) (by rw [hal _ (by omega), hA])
    (by rw [dip_cn f (i + 15) (by omega) (by omega)]; simp) (fun j z hj hz => by
      obtain ⟨-, rfl⟩ := hlt j z hz
      rw [← hA]
      exact (mul_lt_mul_of_pos_right (dipAngle_mono _ _ hj) hpi).le) (fun j z hj hz => by
      obtain ⟨-, rfl⟩ := hlt j z hz
      rw [← hA]
      exact mul_lt_mul_of_pos_right (dipAngle_mono _ _ hj) hpi)
  unfold devUpper
  rw [hv]
  ring

theorem dip_zero : ∀ i ≤ 5, dip i = 0 := by
  intro i hi
  unfold dip
  rw [if_neg (by omega)]

theorem dip_search : npSearch (1 / 20) dip 40 = 29 := by
  have h : npBisect (1 / 20) dip 3 40 = 30 := by
    have d21 : dip (3 + (40 - 3) / 2) = 0 := by norm_num [dip]
    have d31 : dip (22 + (40 - 22) / 2) = 1 / 10 := by norm_num [dip]
    have d26 : dip (22 + (31 - 22) / 2) = 0 := by norm_num [dip]
    have d29 : dip (27 + (31 - 27) / 2) = 0 := by norm_num [dip]
    have d30 : dip (30 + (31 - 30) / 2) = 1 / 10 := by norm_num [dip]
    rw [npBisect, if_pos (by norm_num), if_pos (by rw [d21]; norm_num)]
    rw [npBisect, if_pos (by norm_num), if_neg (by rw [show 3 + (40 - 3) / 2 + 1 = 22 by norm_num, d31]; norm_num)]
    rw [show 3 + (40 - 3) / 2 + 1 + (40 - (3 + (40 - 3) / 2 + 1)) / 2 = 31 by norm_num, show 3 + (40 - 3) / 2 + 1 = 22 by norm_num]
    rw [npBisect, if_pos (by norm_num), if_pos (by rw [d26]; norm_num)]
    rw [npBisect, if_pos (by norm_num), if_pos (by rw [show 22 + (31 - 22) / 2 + 1 = 27 by norm_num, d29]; norm_num)]
    rw [show 22 + (31 - 22) / 2 + 1 + (31 - (22 + (31 - 22) / 2 + 1)) / 2 + 1 = 30 by norm_num]
    rw [npBisect, if_pos (by norm_num), if_neg (by rw [d30]; norm_num)]
    rw [npBisect, if_neg (by norm_num)]
  unfold npSearch
  rw [if_neg (by norm_num), if_neg (by norm_num [dip]), if_neg (by norm_num [dip]), if_neg (by norm_num [dip]),
    if_neg (by norm_num [dip]), h]

/-- **C94** The stall angle is not always the first angle at which the normal force falls 0.05 below the fitted line.  Here the line is
exact up to 5 degrees and the normal force is 0.1 below it at 6 degrees, but it recovers between 9 and 29 degrees; the search, which
presumes increasing deviations, reports 29.5 degrees. -/
theorem unsteadyparam_first_false (fit : PolyFit ℝ)
    (hfit : ∀ l : List (ℝ × ℝ), (∃ q q', q ∈ l ∧ q' ∈ l ∧ q.1 ≠ q'.1) → (∀ q ∈ l, q.2 = q.1) → fit l = .ok (1, 0)) :
    (dipPolar dip).WF ∧ ∃ u, (dipPolar dip).unsteadyparam fit (-5) 5 = .ok u ∧ u.cnSlope = 1 ∧ u.alphaZeroCn = 0 ∧ u.stallAngle = 59 / 2 ∧
      OnPolyline (normalForceCurve (dipPolar dip).alpha (dipPolar dip).cl (dipPolar dip).cd) (6 * (Real.pi / 180)) (6 * (Real.pi / 180) - 1 / 10) := by
  have hpi := Real.pi_pos
  have hf := hfit _ (dip_points dip dip_zero).1 (dip_points dip dip_zero).2
  have hr : 10 ≤ (dipPolar dip).alpha.length := by simp [dipPolar, arr]
  obtain ⟨u, hu⟩ := unsteadyparam_exists fit (dipPolar dip) (-5) 5 1 0 (dipPolar_wf dip) hr (dipPolar_card dip) hf
  obtain ⟨m, b, sU, sL, i, x, d, hfit', hI, -, -, -, -, -, rfl⟩ := unsteadyparam_inv hr (dipPolar_card dip) hu
  rw [hf, Except.ok.injEq, Prod.mk.injEq] at hfit'
  obtain ⟨rfl, rfl⟩ := hfit'
  refine ⟨(dipPolar_wf dip), _, hu, rfl, by simp, ?_, ?_⟩
  · have e : (arr 40 fun i => (devUpper (dipPolar dip) 1 0 i, (i : ℝ) * (Real.pi / 180))) = arr 40 fun i => (dip i, (i : ℝ) * (Real.pi / 180)) :=
      List.map_congr_left fun i hi => by rw [dip_dev dip i (List.mem_range.mp hi)]
    rw [e] at hI
    obtain ⟨k, t, hk, -, -, -, -, h5, h6⟩ := npInterp_search 40 (by norm_num) dip (1 / 20) (by norm_num [dip]) (by norm_num [dip])
    rw [dip_search] at hk
    subst hk
    rw [h6, Except.ok.injEq] at hI
    norm_num [dip] at h5
    have ht : t = 1 / 2 := by linarith
    rw [ht] at hI
    refine mul_right_cancel₀ (by positivity : Real.pi / 180 ≠ 0) (hI.symm.trans ?_)
    push_cast
    ring
  · have h := curve_value (dipPolar dip) (dipPolar_wf dip) 6 ⟨⟨dipAngle 0, List.mem_map_of_mem (List.mem_range.mpr (by norm_num)), by norm_num [dipAngle]⟩,
      dipAngle 54, List.mem_map_of_mem (List.mem_range.mpr (by norm_num)), by norm_num [dipAngle]⟩
    have h6 := dip_dev dip 6 (by norm_num)
    have hd : dip 6 = 1 / 10 := by norm_num [dip]
    unfold devUpper at h6
    rw [hd] at h6
    convert h using 1
    push_cast at h6
    linarith

/-- Such a fit exists. -/
example : ∃ fit : PolyFit ℝ, ∀ l : List (ℝ × ℝ), (∃ q q', q ∈ l ∧ q' ∈ l ∧ q.1 ≠ q'.1) → (∀ q ∈ l, q.2 = q.1) → fit l = .ok (1, 0) :=
  ⟨fun _ => .ok (1, 0), fun _ _ _ => rfl⟩

/-! ## A wing that stalls at ten degrees -/

theorem dipPolar_covers (f : ℕ → ℝ) (x : ℝ) (h1 : -90 ≤ x) (h2 : x ≤ 39) : (dipPolar f).Covers x :=
  ⟨⟨dipAngle 0, List.mem_map_of_mem (List.mem_range.mpr (by norm_num)), by norm_num [dipAngle]; exact h1⟩,
    dipAngle 54, List.mem_map_of_mem (List.mem_range.mpr (by norm_num)), by norm_num [dipAngle]; exact h2⟩

/-- The hypotheses of the partial statements are met by a normal force that drops by 0.1 between 10 and 11 degrees: the stall angle is
10.5 degrees. -/
example (fit : PolyFit ℝ)
    (hfit : ∀ l : List (ℝ × ℝ), (∃ q q', q ∈ l ∧ q' ∈ l ∧ q.1 ≠ q'.1) → (∀ q ∈ l, q.2 = q.1) → fit l = .ok (1, 0)) :
    ∃ u, (dipPolar fun i => if i ≤ 10 then 0 else 1 / 10).unsteadyparam fit (-5) 5 = .ok u ∧ u.stallAngle = 21 / 2 := by
  set f : ℕ → ℝ := fun i => if i ≤ 10 then 0 else 1 / 10 with hfdef
  have hp := dip_points f fun i hi => if_pos (by omega)
  have hf := hfit _ hp.1 hp.2
  have hr : 10 ≤ (dipPolar f).alpha.length := by simp [dipPolar, arr]
  obtain ⟨u, hu⟩ := unsteadyparam_exists fit (dipPolar f) (-5) 5 1 0 (dipPolar_wf f) hr (dipPolar_card f) hf
  have hc : ∀ i : ℕ, i < 40 → OnPolyline (normalForceCurve (dipPolar f).alpha (dipPolar f).cl (dipPolar f).cd) (i * (Real.pi / 180))
      (i * (Real.pi / 180) - f i) := by
    intro i hi
    have : (i : ℝ) ≤ 39 := by exact_mod_cast (by omega : i ≤ 39)
    have h := curve_value (dipPolar f) (dipPolar_wf f) i (dipPolar_covers f i (by linarith [(Nat.cast_nonneg i : (0 : ℝ) ≤ i)]) this)
    have h6 := dip_dev f i hi
    unfold devUpper at h6
    convert h using 1
    linarith
  refine ⟨u, hu, ?_⟩
  rw [unsteadyparam_stall_first_partial fit (dipPolar f) (-5) 5 u (dipPolar_wf f) (dipPolar_covers f _ (by norm_num) (by norm_num))
    (dipPolar_covers f _ (by norm_num) (by norm_num)) hr (dipPolar_card f) hu 1 0 one_ne_zero hf _ hc 10 (1 / 2) (by norm_num)
    (fun i hi => by
      have : f i = 0 := if_pos hi
      linarith) (fun i hi _ => by
      have : f i = 1 / 10 := if_neg (by omega)
      linarith) (by
      have h1 : f 10 = 0 := if_pos (by omega)
      have h2 : f (10 + 1) = 1 / 10 := if_neg (by omega)
      rw [h1, h2]
      ring)]
  norm_num

end Verif
