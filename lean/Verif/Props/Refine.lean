import Mathlib.Topology.UniformSpace.HeineCantor
import Verif.Props.Integration
import Verif.Props.WindSpeed

/-! # C119: the results converge when the blade is divided more finely -/

open Real MeasureTheory

namespace Verif

/-! ## Specification -/

/-- Chord, twist and airfoil of a blade along the radius. -/
structure BladeShape where
  chord : ℝ → ℝ
  theta : ℝ → ℝ
  af : ℝ → AirfoilI ℝ

/-- The rotor with straight blades of the given shape, divided at the radii `r 0, …, r (n - 1)`; everything else as in `R`. -/
def Rotor.sampled (R : Rotor ℝ) (b : BladeShape) (n : ℕ) (r : ℕ → ℝ) : Rotor ℝ :=
  { R with n := n, r := r, chord := (fun i => b.chord (r i)), theta := (fun i => b.theta (r i)), af := (fun i => b.af (r i)),
           precurve := (fun _ => 0), precurveTip := 0, presweep := (fun _ => 0), presweepTip := 0 }

/-- Increasing stations between hub and tip, at most `d` apart and at most `d` from hub and tip. -/
structure StationMesh (Rhub Rtip d : ℝ) (n : ℕ) (r : ℕ → ℝ) : Prop where
  two : 2 ≤ n
  first : Rhub < r 0
  inc : ∀ i, i + 1 < n → r i < r (i + 1)
  last : r (n - 1) < Rtip
  fineHub : r 0 - Rhub ≤ d
  fine : ∀ i, i + 1 < n → r (i + 1) - r i ≤ d
  fineTip : Rtip - r (n - 1) ≤ d

/-- Whatever the stations, the load `val` of a station is `N` at its radius. -/
def LoadAlong (bq : RootFinder ℝ) (R : Rotor ℝ) (b : BladeShape) (Uinf Omega pitch az : ℝ) (val : SecLoads ℝ → ℝ) (N : ℝ → ℝ) : Prop :=
  ∀ d n r, StationMesh R.Rhub R.Rtip d n r → ∀ L, (distributedAeroLoads bq (R.sampled b n r) Uinf Omega pitch az).2 = .ok L →
    ∀ (i : ℕ) (s : Station ℝ), L.stations[i]? = some s → val s.loads = N (r i)

/-! ## Stations do not notice each other -/

section
variable {R : Rotor ℝ} {b : BladeShape} {d d' : ℝ} {n n' : ℕ} {r r' : ℕ → ℝ}

theorem sampled_cone (hcone : |R.precone| < π / 2) (M : StationMesh R.Rhub R.Rtip d n r) {i : ℕ} (hi : i < n) :
    (defineCurvature n r (fun _ => 0) (fun _ => 0) R.precone).cone i = R.precone := by
  have hpi := pi_pos
  have hca := abs_lt.mp hcone
  exact cone_of_straight_blade n M.two _ _ _ _ ⟨by linarith, by linarith⟩ M.inc (fun _ _ => rfl) i hi

theorem sampled_wind (hcone : |R.precone| < π / 2) (M : StationMesh R.Rhub R.Rtip d n r) (M' : StationMesh R.Rhub R.Rtip d' n' r') {i j : ℕ}
    (hi : i < n) (hj : j < n') (h : r i = r' j) (Uinf Omega az : ℝ) :
    rotorWind (R.sampled b n r) Uinf Omega az i = rotorWind (R.sampled b n' r') Uinf Omega az j := by
  have e := sampled_cone hcone M hi
  have e' := sampled_cone hcone M' hj
  simp only [rotorWind, Rotor.sampled, windComponents]
  rw [e, e']
  simp only [defineCurvature, xAz, yAz, zAz, h]

theorem sampled_station (bq : RootFinder ℝ) (hinv : R.inv = none) {V V' : ℕ → ℝ × ℝ} {i j : ℕ} (h : r i = r' j) (hV : V i = V' j) (pitch Omega : ℝ) :
    solveStation bq (R.sampled b n r) pitch Omega V i = solveStation bq (R.sampled b n' r') pitch Omega V' j := by
  have hc : SameCore (R.sampled b n r) (R.sampled b n' r') := ⟨rfl, rfl, rfl, rfl, rfl, rfl, rfl, rfl⟩
  have hs : ∀ th, stationSec (R.sampled b n r) V i th = stationSec (R.sampled b n' r') V' j th := by
    intro th
    simp only [stationSec, Rotor.sampled, h, hV]
  have ht : (R.sampled b n r).theta i = (R.sampled b n' r').theta j := by simp only [Rotor.sampled, h]
  have h1 : (R.sampled b n r).inv = none := hinv
  have h2 : (R.sampled b n' r').inv = none := hinv
  simp only [solveStation, stationPhi, stationErrf, stationTheta, h1, h2, hs, ht, hc.errFun, hc.secLoads, hc.iterRe]

/-- **C119** A straight blade of given shape, divided in two ways that share a radius: the station there gets the same inflow angle, warning,
loads and derivatives in both. -/
theorem station_mesh_free (bq : RootFinder ℝ) (hinv : R.inv = none) (hcone : |R.precone| < π / 2) (M : StationMesh R.Rhub R.Rtip d n r)
    (M' : StationMesh R.Rhub R.Rtip d' n' r') (Uinf Omega pitch az : ℝ) (R1 R2 : Rotor ℝ) (L L' : LoadsOut ℝ)
    (h : distributedAeroLoads bq (R.sampled b n r) Uinf Omega pitch az = (R1, .ok L))
    (h' : distributedAeroLoads bq (R.sampled b n' r') Uinf Omega pitch az = (R2, .ok L')) (i j : ℕ) (s s' : Station ℝ)
    (hs : L.stations[i]? = some s) (hs' : L'.stations[j]? = some s') (hr : r i = r' j) : s = s' := by
  obtain ⟨hi, e⟩ := loads_station h hs
  obtain ⟨hj, e'⟩ := loads_station h' hs'
  rw [sampled_station bq hinv hr (sampled_wind hcone M M' hi hj hr Uinf Omega _), e', Except.ok.injEq] at e
  exact e.symm

/-- **C119** Hence there is one station result per radius: the stations of every division of the blade sample it. -/
theorem station_along (bq : RootFinder ℝ) (hinv : R.inv = none) (hcone : |R.precone| < π / 2) (Uinf Omega pitch az : ℝ) :
    ∃ S : ℝ → Station ℝ, ∀ d n r, StationMesh R.Rhub R.Rtip d n r →
      ∀ L, (distributedAeroLoads bq (R.sampled b n r) Uinf Omega pitch az).2 = .ok L → ∀ (i : ℕ) (s : Station ℝ), L.stations[i]? = some s → s = S (r i) := by
  classical
  let P : ℝ → Station ℝ → Prop := fun x s => ∃ d n r L i, StationMesh R.Rhub R.Rtip d n r ∧
    (distributedAeroLoads bq (R.sampled b n r) Uinf Omega pitch az).2 = .ok L ∧ L.stations[i]? = some s ∧ r i = x
  refine ⟨fun x => if h : ∃ s, P x s then h.choose else ⟨0, false, 0, ⟨0, 0, 0, 0, 0, 0, 0, 0, 0, 0, 0, 0⟩, fun _ => 0, fun _ => 0⟩, ?_⟩
  intro d n r M L hL i s hs
  have hP : P (r i) s := ⟨d, n, r, L, i, M, hL, hs, rfl⟩
  have hex : ∃ s, P (r i) s := ⟨s, hP⟩
  dsimp only
  rw [dif_pos hex]
  obtain ⟨d', n', r', L', j, M', hL', hs', hr⟩ := hex.choose_spec
  exact station_mesh_free bq hinv hcone M M' Uinf Omega pitch az _ _ L L' (Prod.ext rfl hL) (Prod.ext rfl hL') i j s _ hs hs' hr.symm

/-! ## The integral over the blade -/

theorem StationMesh.padded_inc (M : StationMesh R.Rhub R.Rtip d n r) : ∀ i, i + 1 < n + 2 →
    padded n R.Rhub r R.Rtip i < padded n R.Rhub r R.Rtip (i + 1) ∧ padded n R.Rhub r R.Rtip (i + 1) - padded n R.Rhub r R.Rtip i ≤ d := by
  intro l hl
  have := M.two
  simp only [padded]
  by_cases h0 : l = 0
  · subst h0
    have h3 : ¬ n = 0 := by omega
    simp only [if_true, zero_add, one_ne_zero, if_false, right_eq_add, if_neg h3, Nat.sub_self]
    exact ⟨M.first, M.fineHub⟩
  · by_cases h1 : l = n
    · subst h1
      have h3 : ¬ l = l + 1 := by omega
      simp only [if_neg h0, if_neg h3, if_true, if_neg (Nat.succ_ne_zero l)]
      exact ⟨M.last, M.fineTip⟩
    · have h3 : ¬ l = n + 1 := by omega
      have h4 : ¬ l + 1 = n + 1 := by omega
      have a := M.inc (l - 1) (by omega)
      have b := M.fine (l - 1) (by omega)
      rw [show l - 1 + 1 = l by omega] at a b
      simp only [if_neg h0, if_neg h3, if_neg h4, if_neg (Nat.succ_ne_zero l), Nat.add_sub_cancel]
      exact ⟨a, b⟩

/-- The trapezoids over a division of the blade, without load at hub and tip, are off the integral by at most the variation of the load over one
division, and the load lost at the two ends. -/
theorem trapezoid_error {a c : ℝ} {q P S : ℕ → ℝ} {f : ℝ → ℝ} {m : ℕ} {B e : ℝ} (hm : 1 ≤ m) (h0 : q 0 = a) (h1 : q m = c)
    (hinc : ∀ i < m, q i < q (i + 1) ∧ q (i + 1) - q i ≤ d) (hS : ∀ i < m, S (i + 1) - S i = q (i + 1) - q i)
    (hP : ∀ i, 0 < i → i < m → P i = f (q i)) (hP0 : P 0 = 0) (hPm : P m = 0) (hf : ContinuousOn f (Set.Icc a c))
    (hB : ∀ x ∈ Set.Icc a c, |f x| ≤ B) (he : ∀ x ∈ Set.Icc a c, ∀ y ∈ Set.Icc a c, |x - y| ≤ d → |f x - f y| ≤ e) :
    |trapz m P S - (∫ x in a..c, f x)| ≤ e * (c - a) + B * d := by
  have hmono : ∀ i j, i ≤ j → j ≤ m → q i ≤ q j := by
    intro i j hij
    induction j, hij using Nat.le_induction with
    | base => intro _; exact le_rfl
    | succ j hj ih => intro hjm; exact (ih (by omega)).trans (hinc j (by omega)).1.le
  have hmem : ∀ i ≤ m, q i ∈ Set.Icc a c := fun i hi => ⟨h0 ▸ hmono 0 i (by omega) hi, h1 ▸ hmono i m hi le_rfl⟩
  have hd : 0 ≤ d := by linarith [(hinc 0 (by omega)).1, (hinc 0 (by omega)).2]
  have hsub : ∀ i < m, Set.uIcc (q i) (q (i + 1)) ⊆ Set.Icc a c := by
    intro i hi
    rw [Set.uIcc_of_le (hinc i hi).1.le]
    exact Set.Icc_subset_Icc (hmem i hi.le).1 (hmem (i + 1) hi).2
  have hint : ∀ i < m, IntervalIntegrable f volume (q i) (q (i + 1)) := fun i hi => (hf.mono (hsub i hi)).intervalIntegrable
  have hsum : ∫ x in a..c, f x = ∑ i ∈ Finset.range m, ∫ x in q i..q (i + 1), f x := by
    rw [intervalIntegral.sum_integral_adjacent_intervals hint, h0, h1]
  set E : ℕ → ℝ := fun i => if i = 0 ∨ i = m then B else 0 with hE
  have hBn : 0 ≤ B := (abs_nonneg _).trans (hB _ (hmem 0 (by omega)))
  have hPE : ∀ i ≤ m, |P i - f (q i)| ≤ E i := by
    intro i hi
    simp only [hE]
    split_ifs with h
    · have : P i = 0 := by rcases h with h | h <;> rw [h] <;> assumption
      rw [this, zero_sub, abs_neg]
      exact hB _ (hmem i hi)
    · push Not at h
      rw [hP i (by omega) (by omega), sub_self, abs_zero]
  have panel : ∀ i ∈ Finset.range m, |1 / 2 * (P i + P (i + 1)) * (q (i + 1) - q i) - (∫ x in q i..q (i + 1), f x)|
      ≤ e * (q (i + 1) - q i) + 1 / 2 * (E i + E (i + 1)) * d := by
    intro i hi
    have hi := Finset.mem_range.mp hi
    obtain ⟨hlt, hgap⟩ := hinc i hi
    have hh : 0 ≤ q (i + 1) - q i := by linarith
    have k1 : |1 / 2 * (f (q i) + f (q (i + 1))) * (q (i + 1) - q i) - (∫ x in q i..q (i + 1), f x)| ≤ e * (q (i + 1) - q i) := by
      have : 1 / 2 * (f (q i) + f (q (i + 1))) * (q (i + 1) - q i) - (∫ x in q i..q (i + 1), f x)
          = ∫ x in q i..q (i + 1), (1 / 2 * (f (q i) + f (q (i + 1))) - f x) := by
        rw [intervalIntegral.integral_sub intervalIntegrable_const (hint i hi), intervalIntegral.integral_const, smul_eq_mul]
        ring
      rw [this, ← Real.norm_eq_abs]
      refine (intervalIntegral.norm_integral_le_of_norm_le_const (C := e) fun x hx => ?_).trans (by rw [abs_of_nonneg hh])
      rw [Set.uIoc_of_le hlt.le] at hx
      have hxm : x ∈ Set.Icc a c := hsub i hi (by rw [Set.uIcc_of_le hlt.le]; exact ⟨hx.1.le, hx.2⟩)
      have l1 := he _ (hmem i hi.le) x hxm (by rw [abs_le]; constructor <;> linarith [hx.1, hx.2])
      have l2 := he _ (hmem (i + 1) hi) x hxm (by rw [abs_le]; constructor <;> linarith [hx.1, hx.2])
      rw [Real.norm_eq_abs]
      rw [abs_le] at l1 l2 ⊢
      constructor <;> linarith [l1.1, l1.2, l2.1, l2.2]
    have k2 : |1 / 2 * (P i + P (i + 1)) * (q (i + 1) - q i) - 1 / 2 * (f (q i) + f (q (i + 1))) * (q (i + 1) - q i)|
        ≤ 1 / 2 * (E i + E (i + 1)) * d := by
      have e1 := hPE i hi.le
      have e2 := hPE (i + 1) hi
      have hE0 : 0 ≤ E i := (abs_nonneg _).trans e1
      have hE1 : 0 ≤ E (i + 1) := (abs_nonneg _).trans e2
      rw [show 1 / 2 * (P i + P (i + 1)) * (q (i + 1) - q i) - 1 / 2 * (f (q i) + f (q (i + 1))) * (q (i + 1) - q i)
        = 1 / 2 * ((P i - f (q i)) + (P (i + 1) - f (q (i + 1)))) * (q (i + 1) - q i) by ring, abs_mul, abs_mul, abs_of_nonneg hh,
        abs_of_nonneg (by norm_num : (0 : ℝ) ≤ 1 / 2)]
      refine mul_le_mul (mul_le_mul_of_nonneg_left ((abs_add_le _ _).trans (add_le_add e1 e2)) (by norm_num)) hgap hh (by positivity)
    have := abs_add_le (1 / 2 * (P i + P (i + 1)) * (q (i + 1) - q i) - 1 / 2 * (f (q i) + f (q (i + 1))) * (q (i + 1) - q i))
      (1 / 2 * (f (q i) + f (q (i + 1))) * (q (i + 1) - q i) - (∫ x in q i..q (i + 1), f x))
    rw [sub_add_sub_cancel] at this
    linarith
  have htr : trapz m P S = ∑ i ∈ Finset.range m, 1 / 2 * (P i + P (i + 1)) * (q (i + 1) - q i) := by
    simp only [trapz, num_real, real_sumTo]
    refine Finset.sum_congr rfl fun i hi => ?_
    rw [hS i (Finset.mem_range.mp hi)]
    norm_num
  rw [htr, hsum, ← Finset.sum_sub_distrib]
  refine (Finset.abs_sum_le_sum_abs _ _).trans ((Finset.sum_le_sum panel).trans (le_of_eq ?_))
  rw [Finset.sum_add_distrib, ← Finset.mul_sum, Finset.sum_range_sub, h0, h1, ← Finset.sum_mul, ← Finset.mul_sum, Finset.sum_add_distrib]
  have s1 : ∑ i ∈ Finset.range m, E i = B := by
    rw [Finset.sum_eq_single 0 (fun i hi h => ?_) (fun h => absurd (Finset.mem_range.mpr (by omega)) h)]
    · simp [hE]
    · have := Finset.mem_range.mp hi
      simp only [hE]
      rw [if_neg (by omega)]
  have s2 : ∑ i ∈ Finset.range m, E (i + 1) = B := by
    rw [Finset.sum_eq_single (m - 1) (fun i hi h => ?_) (fun h => absurd (Finset.mem_range.mpr (by omega)) h)]
    · simp only [hE]
      rw [if_pos (by omega)]
    · have := Finset.mem_range.mp hi
      simp only [hE]
      rw [if_neg (by omega)]
  rw [s1, s2]
  ring

theorem StationMesh.mono {d d' : ℝ} (M : StationMesh R.Rhub R.Rtip d n r) (h : d ≤ d') : StationMesh R.Rhub R.Rtip d' n r :=
  ⟨M.two, M.first, M.inc, M.last, M.fineHub.trans h, fun i hi => (M.fine i hi).trans h, M.fineTip.trans h⟩

theorem StationMesh.hub_lt_tip (M : StationMesh R.Rhub R.Rtip d n r) : R.Rhub < R.Rtip := by
  have h : ∀ j, j < n → R.Rhub < r j := by
    intro j
    induction j with
    | zero => intro _; exact M.first
    | succ j ih => intro hj; exact lt_trans (ih (by omega)) (M.inc j hj)
  exact (h (n - 1) (by have := M.two; omega)).trans M.last

/-- The arc length along the blade of the sampled rotor. -/
noncomputable def sampledArc (R : Rotor ℝ) (n : ℕ) (r : ℕ → ℝ) : ℕ → ℝ :=
  (defineCurvature (n + 2) (padded n R.Rhub r R.Rtip) (padded n 0 (fun _ => 0) 0) (padded n 0 (fun _ => 0) 0) R.precone).s

theorem blade_error (M : StationMesh R.Rhub R.Rtip d n r) {F : ℕ → ℝ} {f : ℝ → ℝ} {B e : ℝ} (hF : ∀ i < n, F i = f (r i))
    (hf : ContinuousOn f (Set.Icc R.Rhub R.Rtip)) (hB : ∀ x ∈ Set.Icc R.Rhub R.Rtip, |f x| ≤ B)
    (he : ∀ x ∈ Set.Icc R.Rhub R.Rtip, ∀ y ∈ Set.Icc R.Rhub R.Rtip, |x - y| ≤ d → |f x - f y| ≤ e) :
    |trapz (n + 1) (padded n 0 F 0) (sampledArc R n r) - (∫ x in R.Rhub..R.Rtip, f x)| ≤ e * (R.Rtip - R.Rhub) + B * d := by
  have hinc := M.padded_inc
  refine trapezoid_error (q := padded n R.Rhub r R.Rtip) (by omega) (by simp [padded]) (by simp [padded]) (fun i hi => hinc i (by omega)) ?_ ?_
    (by simp [padded]) (by simp [padded]) hf hB he
  · intro i hi
    have h1 := (hinc i (by omega)).1
    have hz : ∀ j, padded n (0 : ℝ) (fun _ => 0) 0 j = 0 := by intro j; simp [padded]
    simp only [sampledArc, defineCurvature, pathLength, segLength, num_real, add_sub_cancel_left, hz]
    rw [show ((0 : ℝ) - 0) ^ 2 + (0 - 0) ^ 2 + (padded n R.Rhub r R.Rtip (i + 1) - padded n R.Rhub r R.Rtip i) ^ 2
      = (padded n R.Rhub r R.Rtip (i + 1) - padded n R.Rhub r R.Rtip i) ^ 2 by ring]
    exact Real.sqrt_sq (by linarith)
  · intro i h0 h1
    simp only [padded]
    rw [if_neg (by omega), if_neg (by omega), if_neg (by omega), if_neg (by omega)]
    exact hF _ (by omega)

theorem blade_limit {f : ℝ → ℝ} (hf : ContinuousOn f (Set.Icc R.Rhub R.Rtip)) {ε : ℝ} (hε : 0 < ε) :
    ∃ δ > 0, ∀ n r, StationMesh R.Rhub R.Rtip δ n r → ∀ F : ℕ → ℝ, (∀ i < n, F i = f (r i)) →
      |trapz (n + 1) (padded n 0 F 0) (sampledArc R n r) - (∫ x in R.Rhub..R.Rtip, f x)| ≤ ε := by
  rcases le_or_gt R.Rtip R.Rhub with hle | hlt
  · exact ⟨1, one_pos, fun n r M => absurd M.hub_lt_tip (not_lt.mpr hle)⟩
  obtain ⟨B, hB⟩ := isCompact_Icc.exists_bound_of_continuousOn hf
  have hu := isCompact_Icc.uniformContinuousOn_of_continuous hf
  have hB0 : 0 ≤ B := (norm_nonneg _).trans (hB R.Rhub ⟨le_rfl, hlt.le⟩)
  have hw : 0 < R.Rtip - R.Rhub := by linarith
  obtain ⟨δ, hδ, hd⟩ := Metric.uniformContinuousOn_iff.mp hu (ε / (2 * (R.Rtip - R.Rhub))) (by positivity)
  have h1 : min (δ / 2) (ε / (2 * (B + 1))) ≤ δ / 2 := min_le_left _ _
  have h2 : min (δ / 2) (ε / (2 * (B + 1))) ≤ ε / (2 * (B + 1)) := min_le_right _ _
  refine ⟨min (δ / 2) (ε / (2 * (B + 1))), by positivity, fun n r M F hF => ?_⟩
  refine (blade_error M hF hf hB (e := ε / (2 * (R.Rtip - R.Rhub))) fun x hx y hy hxy => ?_).trans ?_
  · have := hd x hx y hy (by rw [Real.dist_eq]; linarith)
    rw [Real.dist_eq] at this
    exact this.le
  · have e1 : ε / (2 * (R.Rtip - R.Rhub)) * (R.Rtip - R.Rhub) = ε / 2 := by field_simp
    have e2 : B * min (δ / 2) (ε / (2 * (B + 1))) ≤ ε / 2 := by
      refine (mul_le_mul_of_nonneg_left h2 hB0).trans ?_
      rw [mul_div_assoc', div_le_div_iff₀ (by positivity) (by norm_num)]
      nlinarith
    linarith

/-- `((2 x - a - c) / (c - a)) ^ (2 m)`: one at the two ends of the blade, small in between. -/
noncomputable def endWeight (a c : ℝ) (m : ℕ) (x : ℝ) : ℝ := (2 / (c - a) * x + -(a + c) / (c - a)) ^ (2 * m)

theorem endWeight_continuous (a c : ℝ) (m : ℕ) : Continuous (endWeight a c m) := by unfold endWeight; fun_prop

theorem endWeight_mem {a c : ℝ} (h : a < c) (m : ℕ) {x : ℝ} (hx : x ∈ Set.Icc a c) : 0 ≤ endWeight a c m x ∧ endWeight a c m x ≤ 1 := by
  have hw : 0 < c - a := by linarith
  have e : 2 / (c - a) * x + -(a + c) / (c - a) = (2 * x - a - c) / (c - a) := by field_simp; ring
  refine ⟨Even.pow_nonneg ⟨m, by ring⟩ _, ?_⟩
  unfold endWeight
  rw [e, pow_mul]
  refine pow_le_one₀ (sq_nonneg _) ?_
  rw [sq_le_one_iff_abs_le_one, abs_le, le_div_iff₀ hw, div_le_one hw]
  constructor <;> linarith [hx.1, hx.2]

theorem endWeight_ends {a c : ℝ} (h : a < c) (m : ℕ) : endWeight a c m a = 1 ∧ endWeight a c m c = 1 := by
  have hw : c - a ≠ 0 := by linarith
  have e1 : 2 / (c - a) * a + -(a + c) / (c - a) = -1 := by field_simp; ring
  have e2 : 2 / (c - a) * c + -(a + c) / (c - a) = 1 := by field_simp; ring
  unfold endWeight
  rw [e1, e2, pow_mul]
  norm_num

theorem endWeight_integral {a c : ℝ} (h : a < c) (m : ℕ) : (∫ x in a..c, endWeight a c m x) = (c - a) / (2 * m + 1) := by
  have hw : c - a ≠ 0 := by linarith
  have e1 : 2 / (c - a) * a + -(a + c) / (c - a) = -1 := by field_simp; ring
  have e2 : 2 / (c - a) * c + -(a + c) / (c - a) = 1 := by field_simp; ring
  unfold endWeight
  rw [intervalIntegral.integral_comp_mul_add (fun t => t ^ (2 * m)) (by positivity), e1, e2, integral_pow, smul_eq_mul]
  have : (-1 : ℝ) ^ (2 * m + 1) = -1 := by rw [pow_succ, pow_mul]; norm_num
  rw [this, one_pow]
  push_cast
  field_simp
  ring

/-- A load between hub and tip, bounded but without limits there, faded out towards the ends. -/
theorem faded_continuous {a c B : ℝ} (h : a < c) (m : ℕ) {f : ℝ → ℝ} (hf : ContinuousOn f (Set.Ioo a c)) (hB : ∀ x ∈ Set.Ioo a c, |f x| ≤ B) :
    ContinuousOn (fun x => f x * (1 - endWeight a c m x)) (Set.Icc a c) := by
  have hw := endWeight_continuous a c m
  obtain ⟨e1, e2⟩ := endWeight_ends h m
  have hend : ∀ x0, endWeight a c m x0 = 1 → ContinuousWithinAt (fun x => f x * (1 - endWeight a c m x)) (Set.Icc a c) x0 := by
    intro x0 h1
    have e0 : f x0 * (1 - endWeight a c m x0) = 0 := by rw [h1, sub_self, mul_zero]
    unfold ContinuousWithinAt
    dsimp only
    rw [e0]
    have hb : 0 ≤ B := (abs_nonneg _).trans (hB ((a + c) / 2) ⟨by linarith, by linarith⟩)
    refine squeeze_zero_norm' (a := fun x => B * (1 - endWeight a c m x)) ?_ ?_
    · filter_upwards [self_mem_nhdsWithin] with x hx
      obtain ⟨w0, w1⟩ := endWeight_mem h m hx
      rw [Real.norm_eq_abs, abs_mul, abs_of_nonneg (by linarith : 0 ≤ 1 - endWeight a c m x)]
      rcases eq_or_lt_of_le hx.1 with q | q
      · rw [← q, e1]; simp
      rcases eq_or_lt_of_le hx.2 with q' | q'
      · rw [q', e2]; simp
      exact mul_le_mul_of_nonneg_right (hB x ⟨q, q'⟩) (by linarith)
    · have : Filter.Tendsto (fun x => B * (1 - endWeight a c m x)) (nhds x0) (nhds (B * (1 - endWeight a c m x0))) :=
        (continuous_const.mul (continuous_const.sub hw)).tendsto x0
      rw [h1, sub_self, mul_zero] at this
      exact this.mono_left nhdsWithin_le_nhds
  intro x hx
  rcases eq_or_lt_of_le hx.1 with q | q
  · exact hend x (by rw [← q, e1])
  rcases eq_or_lt_of_le hx.2 with q' | q'
  · exact hend x (by rw [q', e2])
  · have := hf.continuousAt (Ioo_mem_nhds q q')
    exact (this.mul (continuousAt_const.sub hw.continuousAt)).continuousWithinAt

theorem StationMesh.range (M : StationMesh R.Rhub R.Rtip d n r) {i : ℕ} (hi : i < n) : r i ∈ Set.Ioo R.Rhub R.Rtip := by
  have h1 : ∀ j, j < n → R.Rhub < r j := by
    intro j
    induction j with
    | zero => intro _; exact M.first
    | succ j ih => intro hj; exact lt_trans (ih (by omega)) (M.inc j hj)
  have h2 : ∀ k, k < n → r (n - 1 - k) < R.Rtip := by
    intro k
    induction k with
    | zero => intro _; exact M.last
    | succ k ih =>
      intro hk
      have := M.inc (n - 1 - (k + 1)) (by omega)
      rw [show n - 1 - (k + 1) + 1 = n - 1 - k by omega] at this
      exact this.trans (ih (by omega))
  have := h2 (n - 1 - i) (by omega)
  rw [show n - 1 - (n - 1 - i) = i by omega] at this
  exact ⟨h1 i hi, this⟩

theorem trapz_sub_le {m : ℕ} {P Q E S : ℕ → ℝ} (hS : ∀ i < m, S i ≤ S (i + 1)) (h : ∀ i ≤ m, |P i - Q i| ≤ E i) :
    |trapz m P S - trapz m Q S| ≤ trapz m E S := by
  simp only [trapz, num_real, real_sumTo]
  rw [← Finset.sum_sub_distrib]
  refine (Finset.abs_sum_le_sum_abs _ _).trans (Finset.sum_le_sum fun i hi => ?_)
  have hi := Finset.mem_range.mp hi
  have a := abs_le.mp (h i hi.le)
  have b := abs_le.mp (h (i + 1) hi)
  have s := hS i hi
  have e : (0 : ℝ) ≤ (S (i + 1) - S i) := by linarith
  norm_num
  rw [abs_le]
  constructor <;> nlinarith [mul_nonneg e (sub_nonneg.mpr a.1), mul_nonneg e (sub_nonneg.mpr a.2), mul_nonneg e (sub_nonneg.mpr b.1), mul_nonneg e (sub_nonneg.mpr b.2)]

theorem sampledArc_mono (i : ℕ) : sampledArc R n r i ≤ sampledArc R n r (i + 1) := by
  simp only [sampledArc, defineCurvature, pathLength, segLength, num_real]
  linarith [Real.sqrt_nonneg ((padded n (0:ℝ) (fun _ => 0) 0 (i + 1) - padded n 0 (fun _ => 0) 0 i) ^ 2
    + (padded n 0 (fun _ => 0) 0 (i + 1) - padded n 0 (fun _ => 0) 0 i) ^ 2 + (padded n R.Rhub r R.Rtip (i + 1) - padded n R.Rhub r R.Rtip i) ^ 2)]

/-- Loads need not have limits at hub and tip (the loss factors vanish there). -/
theorem blade_limit_open {f : ℝ → ℝ} {B : ℝ} (hf : ContinuousOn f (Set.Ioo R.Rhub R.Rtip)) (hB : ∀ x ∈ Set.Ioo R.Rhub R.Rtip, |f x| ≤ B)
    {ε : ℝ} (hε : 0 < ε) :
    ∃ δ > 0, ∀ n r, StationMesh R.Rhub R.Rtip δ n r → ∀ F : ℕ → ℝ, (∀ i < n, F i = f (r i)) →
      |trapz (n + 1) (padded n 0 F 0) (sampledArc R n r) - (∫ x in R.Rhub..R.Rtip, f x)| ≤ ε := by
  rcases le_or_gt R.Rtip R.Rhub with hle | hlt
  · exact ⟨1, one_pos, fun n r M => absurd M.hub_lt_tip (not_lt.mpr hle)⟩
  have hw : 0 < R.Rtip - R.Rhub := by linarith
  have hb : 0 ≤ B := (abs_nonneg _).trans (hB ((R.Rhub + R.Rtip) / 2) ⟨by linarith, by linarith⟩)
  obtain ⟨m, hm⟩ := exists_nat_gt (B * (R.Rtip - R.Rhub) / (ε / 4))
  have hsmall : B * ((R.Rtip - R.Rhub) / (2 * m + 1)) ≤ ε / 4 := by
    rw [div_lt_iff₀ (by positivity)] at hm
    rw [mul_div_assoc', div_le_iff₀ (by positivity)]
    nlinarith [mul_nonneg (Nat.cast_nonneg (α := ℝ) m) hε.le]
  set w := endWeight R.Rhub R.Rtip m with hwd
  have wc : Continuous w := endWeight_continuous _ _ _
  have gc := faded_continuous hlt m hf hB
  obtain ⟨d1, p1, h1⟩ := blade_limit gc (show 0 < ε / 4 by positivity)
  obtain ⟨d2, p2, h2⟩ := blade_limit (R := R) (f := fun x => B * w x) (by fun_prop) (show 0 < ε / 4 by positivity)
  refine ⟨min d1 d2, by positivity, fun n r M F hF => ?_⟩
  have t1 := h1 n r (M.mono (min_le_left _ _)) (fun i => f (r i) * (1 - w (r i))) fun _ _ => rfl
  have t2 := h2 n r (M.mono (min_le_right _ _)) (fun i => B * w (r i)) fun _ _ => rfl
  have t3 : |trapz (n + 1) (padded n 0 F 0) (sampledArc R n r) - trapz (n + 1) (padded n 0 (fun i => f (r i) * (1 - w (r i))) 0) (sampledArc R n r)|
      ≤ trapz (n + 1) (padded n 0 (fun i => B * w (r i)) 0) (sampledArc R n r) := by
    refine trapz_sub_le (fun i _ => sampledArc_mono i) fun i hi => ?_
    simp only [padded]
    by_cases c0 : i = 0
    · simp [c0]
    by_cases c1 : i = n + 1
    · simp [c1]
    have hj : i - 1 < n := by omega
    have mem := M.range hj
    obtain ⟨w0, w1⟩ := endWeight_mem hlt m ⟨mem.1.le, mem.2.le⟩
    rw [if_neg c0, if_neg c1, if_neg c0, if_neg c1, if_neg c0, if_neg c1, hF _ hj, show f (r (i - 1)) - f (r (i - 1)) * (1 - w (r (i - 1))) = f (r (i - 1)) * w (r (i - 1)) by ring,
      abs_mul, abs_of_nonneg w0]
    exact mul_le_mul_of_nonneg_right (hB _ mem) w0
  have fint : IntervalIntegrable f volume R.Rhub R.Rtip := by
    rw [intervalIntegrable_iff_integrableOn_Ioo_of_le hlt.le]
    refine Integrable.of_bound (hf.aestronglyMeasurable measurableSet_Ioo) B ?_
    filter_upwards [ae_restrict_mem measurableSet_Ioo] with x hx
    exact hB x hx
  have gint : IntervalIntegrable (fun x => f x * (1 - w x)) volume R.Rhub R.Rtip := by
    refine ContinuousOn.intervalIntegrable ?_
    rwa [Set.uIcc_of_le hlt.le]
  have wint : (∫ x in R.Rhub..R.Rtip, B * w x) = B * ((R.Rtip - R.Rhub) / (2 * m + 1)) := by
    rw [intervalIntegral.integral_const_mul, hwd, endWeight_integral hlt]
  have t4 : |(∫ x in R.Rhub..R.Rtip, f x * (1 - w x)) - (∫ x in R.Rhub..R.Rtip, f x)| ≤ ∫ x in R.Rhub..R.Rtip, B * w x := by
    rw [← intervalIntegral.integral_sub gint fint, ← Real.norm_eq_abs]
    refine intervalIntegral.norm_integral_le_of_norm_le hlt.le ?_ ((continuous_const.mul wc).intervalIntegrable _ _)
    have := (measure_eq_zero_iff_ae_notMem (μ := volume)).mp (Real.volume_singleton (a := R.Rtip))
    filter_upwards [this] with x hx hm
    have hx' : x ≠ R.Rtip := hx
    have mem : x ∈ Set.Ioo R.Rhub R.Rtip := ⟨hm.1, lt_of_le_of_ne hm.2 hx'⟩
    obtain ⟨w0, w1⟩ := endWeight_mem hlt m ⟨mem.1.le, mem.2.le⟩
    rw [Real.norm_eq_abs, show f x * (1 - w x) - f x = -(f x * w x) by ring, abs_neg, abs_mul, abs_of_nonneg w0]
    exact mul_le_mul_of_nonneg_right (hB _ mem) w0
  rw [wint] at t2 t4
  rw [abs_le] at t1 t2 t4
  rw [abs_le] at t3 ⊢
  constructor <;> linarith [t1.1, t1.2, t2.1, t2.2, t3.1, t3.2, t4.1, t4.2]

/-- One bound for all sectors. -/
private theorem common_bound {P : ℕ → ℝ → Prop} (hP : ∀ k {d d' : ℝ}, d ≤ d' → P k d' → P k d) (K : ℕ) (h : ∀ k < K, ∃ δ > 0, P k δ) :
    ∃ δ > 0, ∀ k < K, P k δ := by
  induction K with
  | zero => exact ⟨1, one_pos, fun k hk => absurd hk (Nat.not_lt_zero k)⟩
  | succ K ih =>
    obtain ⟨δ, hδ, h1⟩ := ih fun k hk => h k (by omega)
    obtain ⟨δ', hδ', h2⟩ := h K (by omega)
    refine ⟨min δ δ', lt_min hδ hδ', fun k hk => ?_⟩
    rcases Nat.lt_succ_iff_lt_or_eq.mp hk with hk | rfl
    · exact hP k (min_le_left _ _) (h1 k hk)
    · exact hP k (min_le_right _ _) h2

theorem sampled_blade (hhub : 0 < R.Rhub) (hcone : |R.precone| < π / 2) (M : StationMesh R.Rhub R.Rtip d n r) (L : LoadsOut ℝ) :
    (bladeInt (R.sampled b n r) L).T = trapz (n + 1) (padded n 0 (fun i => stationArr L.stations SecLoads.Np i * cos R.precone) 0) (sampledArc R n r) ∧
    (bladeInt (R.sampled b n r) L).Q
      = trapz (n + 1) (padded n 0 (fun i => stationArr L.stations SecLoads.Tp i * (r i * cos R.precone)) 0) (sampledArc R n r) ∧
    (bladeInt (R.sampled b n r) L).M
      = trapz (n + 1) (padded n 0 (fun i => stationArr L.stations SecLoads.Np i * (r i * cos R.precone)) 0) (sampledArc R n r) := by
  have G : StraightRotor { R.sampled b n r with tilt := 0, yaw := 0, shearExp := 0, rotorR := R.Rtip * cos R.precone } :=
    ⟨M.two, hhub, M.first, M.inc, M.last, fun _ => rfl, rfl, fun _ => rfl, rfl, hcone, rfl, ⟨rfl, rfl, rfl⟩⟩
  exact G.blade_integrals L

end

/-! ## The rotor -/

section
variable {bq : RootFinder ℝ} {R : Rotor ℝ} {b : BladeShape} {c : Cond ℝ} {N T : ℕ → ℝ → ℝ}

/-- The thrust of the rotor if its blades carry the normal force `N k x` at azimuth `k` of `R.nSector` and radius `x`. -/
noncomputable def trueThrust (R : Rotor ℝ) (N : ℕ → ℝ → ℝ) : ℝ :=
  R.B * ((∑ k ∈ Finset.range R.nSector, ∫ x in R.Rhub..R.Rtip, N k x * cos R.precone) / R.nSector)

/-- The root moment of a blade, averaged over the azimuths. -/
noncomputable def trueMoment (R : Rotor ℝ) (N : ℕ → ℝ → ℝ) : ℝ :=
  (∑ k ∈ Finset.range R.nSector, ∫ x in R.Rhub..R.Rtip, N k x * (x * cos R.precone)) / R.nSector

/-- The torque of the rotor if its blades carry the tangential force `T k x`. -/
noncomputable def trueTorque (R : Rotor ℝ) (T : ℕ → ℝ → ℝ) : ℝ :=
  R.B * ((∑ k ∈ Finset.range R.nSector, ∫ x in R.Rhub..R.Rtip, T k x * (x * cos R.precone)) / R.nSector)

private theorem mean_close {K : ℕ} {f g : ℕ → ℝ} {ε : ℝ} (hε : 0 ≤ ε) (h : ∀ k < K, |f k - g k| ≤ ε) :
    |(∑ k ∈ Finset.range K, f k) / K - (∑ k ∈ Finset.range K, g k) / K| ≤ ε := by
  rcases Nat.eq_zero_or_pos K with rfl | hK
  · simpa using hε
  have hK' : (0 : ℝ) < K := by exact_mod_cast hK
  rw [← sub_div, ← Finset.sum_sub_distrib, abs_div, abs_of_pos hK', div_le_iff₀ hK']
  refine (Finset.abs_sum_le_sum_abs _ _).trans ((Finset.sum_le_card_nsmul _ _ ε fun k hk => h k (Finset.mem_range.mp hk)).trans (le_of_eq ?_))
  rw [Finset.card_range, nsmul_eq_mul, mul_comm]

/-- Bounds per sector give bounds for the rotor. -/
private theorem rotor_close {ε : ℝ} (hε : 0 ≤ ε) (hhub : 0 < R.Rhub) (hcone : |R.precone| < π / 2) {d : ℝ} {n : ℕ} {r : ℕ → ℝ}
    (M : StationMesh R.Rhub R.Rtip d n r) {cs : List (Cond ℝ)} {co : Bool} {o : EvalOut ℝ} (h : (evaluate bq (R.sampled b n r) cs co).2 = .ok o)
    {m : ℕ} {x : CondOut ℝ} (hc : cs[m]? = some c) (hx : o.conds[m]? = some x)
    (hN : ∀ k < R.nSector, LoadAlong bq R b c.Uinf c.Omega c.pitch (k * (360 / R.nSector)) SecLoads.Np (N k))
    (hT : ∀ k < R.nSector, LoadAlong bq R b c.Uinf c.Omega c.pitch (k * (360 / R.nSector)) SecLoads.Tp (T k))
    (key : ∀ k < R.nSector, ∀ F : ℕ → ℝ,
      ((∀ i < n, F i = N k (r i) * cos R.precone) →
        |trapz (n + 1) (padded n 0 F 0) (sampledArc R n r) - (∫ x in R.Rhub..R.Rtip, N k x * cos R.precone)| ≤ ε) ∧
      ((∀ i < n, F i = N k (r i) * (r i * cos R.precone)) →
        |trapz (n + 1) (padded n 0 F 0) (sampledArc R n r) - (∫ x in R.Rhub..R.Rtip, N k x * (x * cos R.precone))| ≤ ε) ∧
      ((∀ i < n, F i = T k (r i) * (r i * cos R.precone)) →
        |trapz (n + 1) (padded n 0 F 0) (sampledArc R n r) - (∫ x in R.Rhub..R.Rtip, T k x * (x * cos R.precone))| ≤ ε)) :
    |x.acc.T.val - trueThrust R N| ≤ R.B * ε ∧ |x.acc.Mb.val - trueMoment R N| ≤ ε ∧ |x.acc.Q.val - trueTorque R T| ≤ R.B * ε ∧
      |x.P.val - trueTorque R T * (c.Omega * (π / 30))| ≤ R.B * ε * |c.Omega * (π / 30)| := by
  obtain ⟨L, hL, eT, eQ, eM, -⟩ := sector_averages h hc hx
  have eP := (evaluate_entry h hc hx).2.1
  have hB : (0 : ℝ) ≤ R.B := by positivity
  have arr : ∀ k < R.nSector, ∀ i < n, stationArr (L k).stations SecLoads.Np i = N k (r i) ∧ stationArr (L k).stations SecLoads.Tp i = T k (r i) := by
    intro k hk i hi
    have e : distributedAeroLoads bq (R.sampled b n r) c.Uinf c.Omega c.pitch (k * (360 / R.nSector)) = (_, .ok (L k)) := Prod.ext rfl (hL k hk)
    obtain ⟨s, hs⟩ : ∃ s, (L k).stations[i]? = some s :=
      ⟨_, List.getElem?_eq_getElem (by rw [(solveStations_ok (distributedAeroLoads_stations e)).1]; exact hi)⟩
    simp only [stationArr, hs, Option.map_some, Option.getD_some]
    exact ⟨hN k hk _ _ _ M _ (hL k hk) i s hs, hT k hk _ _ _ M _ (hL k hk) i s hs⟩
  have q1 : |x.acc.Q.val - trueTorque R T| ≤ R.B * ε := by
    rw [eQ]
    unfold trueTorque
    rw [show (R.sampled b n r).B = R.B from rfl, ← mul_sub, abs_mul, abs_of_nonneg hB]
    refine mul_le_mul_of_nonneg_left (mean_close hε fun k hk => ?_) hB
    rw [(sampled_blade hhub hcone M (L k)).2.1]
    exact (key k hk _).2.2 fun i hi => by rw [(arr k hk i hi).2]
  refine ⟨?_, ?_, q1, ?_⟩
  · rw [eT]
    unfold trueThrust
    rw [show (R.sampled b n r).B = R.B from rfl, ← mul_sub, abs_mul, abs_of_nonneg hB]
    refine mul_le_mul_of_nonneg_left (mean_close hε fun k hk => ?_) hB
    rw [(sampled_blade hhub hcone M (L k)).1]
    exact (key k hk _).1 fun i hi => by rw [(arr k hk i hi).1]
  · rw [eM]
    unfold trueMoment
    refine mean_close hε fun k hk => ?_
    rw [(sampled_blade hhub hcone M (L k)).2.2]
    exact (key k hk _).2.1 fun i hi => by rw [(arr k hk i hi).1]
  · rw [eP]
    simp only [power, num_real]
    have := mul_le_mul_of_nonneg_right q1 (abs_nonneg (c.Omega * (π / 30)))
    rw [← abs_mul, sub_mul] at this
    push_cast
    refine le_trans (le_of_eq (congrArg _ ?_)) this
    ring

/-- **C119** A straight coned blade of given shape whose section loads are bounded and continuous between hub and tip, in any wind (tilt, yaw, shear): as
the stations get denser, thrust, blade root moment, torque and power converge to the integrals of the section loads, for every choice of the stations. -/
theorem evaluate_refine (hhub : 0 < R.Rhub) (hcone : |R.precone| < π / 2)
    (hN : ∀ k < R.nSector, LoadAlong bq R b c.Uinf c.Omega c.pitch (k * (360 / R.nSector)) SecLoads.Np (N k))
    (hT : ∀ k < R.nSector, LoadAlong bq R b c.Uinf c.Omega c.pitch (k * (360 / R.nSector)) SecLoads.Tp (T k))
    (hNc : ∀ k < R.nSector, ContinuousOn (N k) (Set.Ioo R.Rhub R.Rtip)) (hTc : ∀ k < R.nSector, ContinuousOn (T k) (Set.Ioo R.Rhub R.Rtip)) {D : ℝ}
    (hND : ∀ k < R.nSector, ∀ x ∈ Set.Ioo R.Rhub R.Rtip, |N k x| ≤ D) (hTD : ∀ k < R.nSector, ∀ x ∈ Set.Ioo R.Rhub R.Rtip, |T k x| ≤ D) (ε : ℝ) (hε : 0 < ε) :
    ∃ δ > 0, ∀ n r, StationMesh R.Rhub R.Rtip δ n r → ∀ (cs : List (Cond ℝ)) (co : Bool) (o : EvalOut ℝ) (m : ℕ) (x : CondOut ℝ),
      (evaluate bq (R.sampled b n r) cs co).2 = .ok o → cs[m]? = some c → o.conds[m]? = some x →
      |x.acc.T.val - trueThrust R N| ≤ ε ∧ |x.acc.Mb.val - trueMoment R N| ≤ ε ∧ |x.acc.Q.val - trueTorque R T| ≤ ε ∧
        |x.P.val - trueTorque R T * (c.Omega * (π / 30))| ≤ ε := by
  have hB : (0 : ℝ) ≤ R.B := by positivity
  have hW := abs_nonneg (c.Omega * (π / 30))
  set η : ℝ := ε / ((R.B + 1) * (|c.Omega * (π / 30)| + 1)) with hη
  have hη0 : 0 < η := by positivity
  have hηε : η * ((R.B + 1) * (|c.Omega * (π / 30)| + 1)) = ε := by
    rw [hη]
    field_simp
  obtain ⟨δ, hδ, key⟩ := common_bound (P := fun k δ => ∀ n r, StationMesh R.Rhub R.Rtip δ n r → ∀ F : ℕ → ℝ,
      ((∀ i < n, F i = N k (r i) * cos R.precone) →
        |trapz (n + 1) (padded n 0 F 0) (sampledArc R n r) - (∫ x in R.Rhub..R.Rtip, N k x * cos R.precone)| ≤ η) ∧
      ((∀ i < n, F i = N k (r i) * (r i * cos R.precone)) →
        |trapz (n + 1) (padded n 0 F 0) (sampledArc R n r) - (∫ x in R.Rhub..R.Rtip, N k x * (x * cos R.precone))| ≤ η) ∧
      ((∀ i < n, F i = T k (r i) * (r i * cos R.precone)) →
        |trapz (n + 1) (padded n 0 F 0) (sampledArc R n r) - (∫ x in R.Rhub..R.Rtip, T k x * (x * cos R.precone))| ≤ η))
    (fun k d d' hd h n r M => h n r (M.mono hd)) R.nSector (fun k hk => by
      have lever : ∀ {y : ℝ}, |y| ≤ D → ∀ x ∈ Set.Ioo R.Rhub R.Rtip, |y * (x * cos R.precone)| ≤ D * R.Rtip := by
        intro y hy x hx
        have hx0 : 0 < x := hhub.trans hx.1
        have hxc : |x * cos R.precone| ≤ R.Rtip := by
          rw [abs_mul, abs_of_pos hx0]
          exact (mul_le_of_le_one_right hx0.le (abs_cos_le_one _)).trans hx.2.le
        rw [abs_mul]
        exact mul_le_mul hy hxc (abs_nonneg _) ((abs_nonneg _).trans hy)
      obtain ⟨d1, p1, h1⟩ := blade_limit_open (R := R) (f := fun x => N k x * cos R.precone) (B := D) ((hNc k hk).mul continuousOn_const)
        (fun x hx => by rw [abs_mul]; exact (mul_le_of_le_one_right (abs_nonneg _) (abs_cos_le_one _)).trans (hND k hk x hx)) hη0
      obtain ⟨d2, p2, h2⟩ := blade_limit_open (R := R) (f := fun x => N k x * (x * cos R.precone)) ((hNc k hk).mul (by fun_prop))
        (fun x hx => lever (hND k hk x hx) x hx) hη0
      obtain ⟨d3, p3, h3⟩ := blade_limit_open (R := R) (f := fun x => T k x * (x * cos R.precone)) ((hTc k hk).mul (by fun_prop))
        (fun x hx => lever (hTD k hk x hx) x hx) hη0
      refine ⟨min d1 (min d2 d3), by positivity, fun n r M F => ⟨h1 n r (M.mono (min_le_left _ _)) F,
        h2 n r (M.mono ((min_le_right _ _).trans (min_le_left _ _))) F, h3 n r (M.mono ((min_le_right _ _).trans (min_le_right _ _))) F⟩⟩)
  refine ⟨δ, hδ, fun n r M cs co o m x h hc hx => ?_⟩
  obtain ⟨t, mb, q, p⟩ := rotor_close hη0.le hhub hcone M h hc hx hN hT fun k hk F => key k hk n r M F
  have e1 : R.B * η ≤ ε := by nlinarith [mul_nonneg hB hη0.le, mul_nonneg (mul_nonneg hB hη0.le) hW, mul_nonneg hη0.le hW]
  have e2 : η ≤ ε := by nlinarith [mul_nonneg hB hη0.le, mul_nonneg (mul_nonneg hB hη0.le) hW, mul_nonneg hη0.le hW]
  have e3 : R.B * η * |c.Omega * (π / 30)| ≤ ε := by nlinarith [mul_nonneg hB hη0.le, mul_nonneg (mul_nonneg hB hη0.le) hW, mul_nonneg hη0.le hW]
  exact ⟨t.trans e1, mb.trans e2, q.trans e1, p.trans e3⟩

/-- **C119** The error of the thrust is of first order: with loads at most `A` that vary by at most `K` per unit length, stations at most `d`
apart give the thrust up to `B cos(precone) (K (Rtip - Rhub) + A) d`. -/
theorem evaluate_refine_rate (hhub : 0 < R.Rhub) (hcone : |R.precone| < π / 2)
    (hN : ∀ k < R.nSector, LoadAlong bq R b c.Uinf c.Omega c.pitch (k * (360 / R.nSector)) SecLoads.Np (N k)) {A K : ℝ}
    (hA : ∀ k < R.nSector, ∀ x ∈ Set.Icc R.Rhub R.Rtip, |N k x| ≤ A)
    (hK : ∀ k < R.nSector, ∀ x ∈ Set.Icc R.Rhub R.Rtip, ∀ y ∈ Set.Icc R.Rhub R.Rtip, |N k x - N k y| ≤ K * |x - y|) (hK0 : 0 ≤ K) (hA0 : 0 ≤ A)
    (d : ℝ) (n : ℕ) (r : ℕ → ℝ) (M : StationMesh R.Rhub R.Rtip d n r) (cs : List (Cond ℝ)) (co : Bool) (o : EvalOut ℝ) (m : ℕ) (x : CondOut ℝ)
    (h : (evaluate bq (R.sampled b n r) cs co).2 = .ok o) (hc : cs[m]? = some c) (hx : o.conds[m]? = some x) :
    |x.acc.T.val - trueThrust R N| ≤ R.B * (cos R.precone * (K * (R.Rtip - R.Rhub) + A) * d) := by
  obtain ⟨L, hL, eT, -⟩ := sector_averages h hc hx
  have hB : (0 : ℝ) ≤ R.B := by positivity
  have hcos : 0 ≤ cos R.precone := cos_nonneg_of_mem_Icc ⟨by linarith [(abs_lt.mp hcone).1], by linarith [(abs_lt.mp hcone).2]⟩
  have hd : 0 ≤ d := by linarith [M.first, M.fineHub]
  have hw := M.hub_lt_tip
  rw [eT]
  unfold trueThrust
  rw [show (R.sampled b n r).B = R.B from rfl, ← mul_sub, abs_mul, abs_of_nonneg hB]
  refine mul_le_mul_of_nonneg_left (mean_close (mul_nonneg (mul_nonneg hcos (by nlinarith)) hd) fun k hk => ?_) hB
  rw [(sampled_blade hhub hcone M (L k)).1]
  refine (blade_error M (f := fun x => N k x * cos R.precone) (B := A * cos R.precone) (e := K * d * cos R.precone) (fun i hi => ?_) ?_ ?_ ?_).trans
    (le_of_eq (by ring))
  · have e : distributedAeroLoads bq (R.sampled b n r) c.Uinf c.Omega c.pitch (k * (360 / R.nSector)) = (_, .ok (L k)) := Prod.ext rfl (hL k hk)
    obtain ⟨s, hs⟩ : ∃ s, (L k).stations[i]? = some s :=
      ⟨_, List.getElem?_eq_getElem (by rw [(solveStations_ok (distributedAeroLoads_stations e)).1]; exact hi)⟩
    simp only [stationArr, hs, Option.map_some, Option.getD_some]
    rw [hN k hk _ _ _ M _ (hL k hk) i s hs]
  · refine ContinuousOn.mul ?_ continuousOn_const
    have : LipschitzOnWith ⟨K, hK0⟩ (N k) (Set.Icc R.Rhub R.Rtip) := LipschitzOnWith.of_dist_le_mul fun x hx y hy => by
      rw [Real.dist_eq, Real.dist_eq]
      exact hK k hk x hx y hy
    exact this.continuousOn
  · intro x hx
    rw [abs_mul, abs_of_nonneg hcos]
    exact mul_le_mul_of_nonneg_right (hA k hk x hx) hcos
  · intro x hx y hy hxy
    rw [← sub_mul, abs_mul, abs_of_nonneg hcos]
    exact mul_le_mul_of_nonneg_right ((hK k hk x hx y hy).trans (mul_le_mul_of_nonneg_left hxy hK0)) hcos

end

/-! ## An example -/

/-- Evenly spaced stations. -/
theorem uniform_mesh {Rhub Rtip : ℝ} (h : Rhub < Rtip) {δ : ℝ} (hδ : 0 < δ) : ∃ n r, StationMesh Rhub Rtip δ n r := by
  obtain ⟨k, hk⟩ := exists_nat_gt ((Rtip - Rhub) / δ)
  have hw : 0 < Rtip - Rhub := by linarith
  have hk0 : (0 : ℝ) ≤ k := by positivity
  have hgap : (Rtip - Rhub) / (k + 3) ≤ δ := by
    rw [div_lt_iff₀ hδ] at hk
    rw [div_le_iff₀ (by positivity)]
    nlinarith
  have hpos : 0 < (Rtip - Rhub) / (k + 3) := by positivity
  have e : (Rtip - Rhub) / (k + 3) * (k + 3) = Rtip - Rhub := by field_simp
  refine ⟨k + 2, fun i => Rhub + (Rtip - Rhub) / (k + 3) * (i + 1), by omega, ?_, ?_, ?_, ?_, ?_, ?_⟩
  · push_cast; nlinarith
  · intro i _; push_cast; nlinarith
  · simp only [show k + 2 - 1 = k + 1 by omega]; push_cast; nlinarith
  · push_cast; nlinarith
  · intro i _; push_cast; nlinarith
  · simp only [show k + 2 - 1 = k + 1 by omega]; push_cast; nlinarith

/-- Plates that only drag, ignored by the residual. -/
noncomputable def paddleShape : BladeShape :=
  ⟨fun _ => 1, fun _ => 0, fun _ => ⟨fun _ _ => (0, 1), fun _ _ => 0, fun _ _ => 0, fun _ _ => 0, fun _ _ => 0⟩⟩

noncomputable def paddleRotor : Rotor ℝ := { annulusRotor (fun i => 6 + i) (fun _ => 1) (fun _ => 0) 1 10 with opts := ⟨false, false, false, false⟩ }

section
variable {d : ℝ} {n : ℕ} {r : ℕ → ℝ}

theorem paddle_straight (M : StationMesh paddleRotor.Rhub paddleRotor.Rtip d n r) : StraightRotor (paddleRotor.sampled paddleShape n r) :=
  have G := annulusRotor_straight (r := fun i => 6 + i) (chord := fun _ => 1) (cl := fun _ => 0) (Rhub := 1) (Rtip := 10) (by norm_num) (by norm_num)
    (by norm_num) (by norm_num)
  ⟨M.two, G.hub, M.first, M.inc, M.last, fun _ => rfl, rfl, fun _ => rfl, rfl, G.cone, G.radius, ⟨G.axial.1, G.axial.2, G.axial.3⟩⟩

theorem paddle_residual (M : StationMesh paddleRotor.Rhub paddleRotor.Rtip d n r) (az : ℝ) {i : ℕ} (hi : i < n) {p : ℝ} (h0 : 0 < p) :
    stationResidual (paddleRotor.sampled paddleShape n r) 6 (30 / π) 0 az i p = sin p - 6 / r i * cos p := by
  have hpi := pi_pos
  have G := paddle_straight M
  rw [stationResidual_const rfl (.inr fun _ _ _ => rfl), G.wind _ _ _ hi, (indOut_eq _ _ _ _ _ _ _ _ _ _ _).2.2]
  have hp : stationPolar (paddleRotor.sampled paddleShape n r) 6 (30 / π) 0 az i p = (0, 1) := rfl
  have hk : kSpec (paddleRotor.sampled paddleShape n r).opts (paddleRotor.sampled paddleShape n r).B ((paddleRotor.sampled paddleShape n r).r i)
      ((paddleRotor.sampled paddleShape n r).chord i) (paddleRotor.sampled paddleShape n r).Rhub (paddleRotor.sampled paddleShape n r).Rtip p 0 1 = 0 := by
    simp [kSpec, cnSpec, paddleRotor, Rotor.sampled]
  have hF : lossSpec (paddleRotor.sampled paddleShape n r).opts (paddleRotor.sampled paddleShape n r).B ((paddleRotor.sampled paddleShape n r).r i)
      (paddleRotor.sampled paddleShape n r).Rhub (paddleRotor.sampled paddleShape n r).Rtip p = 1 := by
    simp [lossSpec, paddleRotor, Rotor.sampled]
  rw [hp]
  simp only
  rw [hk, hF]
  have hw := inv_axial_wake (F := 1) (k := 0) h0 one_pos (by norm_num) (by intro h; norm_num at h)
  simp only [bemResidual, if_pos h0]
  rw [div_eq_mul_one_div (sin p), hw]
  have hwr : (paddleRotor.sampled paddleShape n r).opts.wakeRot = false := rfl
  have hcone : (paddleRotor.sampled paddleShape n r).precone = 0 := by simp [paddleRotor, Rotor.sampled, annulusRotor, demoRotor]
  have hr : (paddleRotor.sampled paddleShape n r).r i = r i := rfl
  have hri : 0 < r i := G.hub.trans (G.range hi).1
  rw [hwr, hcone, hr, cos_zero]
  unfold wakeOf
  rw [if_pos (by norm_num)]
  simp only [Bool.false_eq_true, if_false]
  field_simp
  ring

theorem paddle_station (M : StationMesh paddleRotor.Rhub paddleRotor.Rtip d n r) {az : ℝ} {R' : Rotor ℝ} {L : LoadsOut ℝ}
    (h : distributedAeroLoads someRoot (paddleRotor.sampled paddleShape n r) 6 (30 / π) 0 az = (R', .ok L)) {i : ℕ} {s : Station ℝ}
    (hs : L.stations[i]? = some s) : s.warned = false ∧ s.phi ∈ Set.Ioo 0 (π / 2) := by
  have hpi := pi_gt_three
  have G := paddle_straight M
  have hi : i < n := (loads_station h hs).1
  obtain ⟨hr1, hr2⟩ : 1 < r i ∧ r i < 10 := G.range hi
  have hle : (1 / 1000000 : ℝ) ≤ π / 2 := by linarith
  have hx : 6 / 10 ≤ 6 / r i := div_le_div₀ (by norm_num) le_rfl (by linarith) hr2.le
  obtain ⟨d, h1, -⟩ := solveStation_real (loads_station h hs).2
  have hf : stationErrf (paddleRotor.sampled paddleShape n r) (deg2rad 0) (rotorWind (paddleRotor.sampled paddleShape n r) 6 (30 / π) (deg2rad az)) i
      = stationResidual (paddleRotor.sampled paddleShape n r) 6 (30 / π) 0 az i := rfl
  unfold stationPhi at h1
  rw [if_neg (by simp [num_real]), hf, if_neg (by simp [paddleRotor, Rotor.sampled, annulusRotor, demoRotor])] at h1
  have e := fun phi h0 => paddle_residual M az hi (p := phi) h0
  set f := stationResidual (paddleRotor.sampled paddleShape n r) 6 (30 / π) 0 az i
  have f2 : f (π / 2) = 1 := by rw [e _ (by linarith), sin_pi_div_two, cos_pi_div_two]; norm_num
  have hsign : f (1 / 1000000) * f (π / 2) ≤ 0 := by
    rw [f2, mul_one, e _ (by norm_num)]
    have s1 : sin (1 / 1000000) ≤ 1 / 1000000 := sin_le (by norm_num)
    have c1 : 1 / 2 ≤ cos (1 / 1000000) := by
      have := one_sub_sq_div_two_le_cos (x := 1 / 1000000)
      norm_num at this ⊢
      linarith
    have h4 : 6 / 10 * (1 / 2) ≤ 6 / r i * cos (1 / 1000000) := mul_le_mul hx c1 (by norm_num) (by linarith)
    linarith
  have hcont : ContinuousOn f (Set.Icc (1 / 1000000) (π / 2)) := by
    refine ContinuousOn.congr (f := fun phi => sin phi - 6 / r i * cos phi) (by fun_prop) ?_
    intro phi hp
    exact e phi (lt_of_lt_of_le (by norm_num) hp.1)
  obtain ⟨p, e1, e2, e3⟩ := someRoot_finds f _ _ hle hcont hsign
  unfold solvePhi at h1
  rw [(bracket_choice f).1 hsign] at h1
  simp only [e1, Except.ok.injEq, Prod.mk.injEq] at h1
  rw [← h1.1]
  refine ⟨h1.2.symm, lt_of_lt_of_le (by norm_num) e3.1, lt_of_le_of_ne e3.2 fun h0 => ?_⟩
  rw [h0, f2] at e2
  norm_num at e2

theorem paddle_loads (M : StationMesh paddleRotor.Rhub paddleRotor.Rtip d n r) {az : ℝ} {R' : Rotor ℝ} {L : LoadsOut ℝ}
    (h : distributedAeroLoads someRoot (paddleRotor.sampled paddleShape n r) 6 (30 / π) 0 az = (R', .ok L)) {i : ℕ} {s : Station ℝ}
    (hs : L.stations[i]? = some s) :
    s.loads.Np = 3 * paddleRotor.rho * √(r i ^ 2 + 36) ∧ s.loads.Tp = -(paddleRotor.rho / 2 * r i * √(r i ^ 2 + 36)) := by
  have hpi := pi_gt_three
  have hO : 30 / π ≠ 0 := by positivity
  have G := paddle_straight M
  have hi : i < n := (loads_station h hs).1
  obtain ⟨hr1, hr2⟩ : 1 < r i ∧ r i < 10 := G.range hi
  obtain ⟨w, hphi⟩ := paddle_station M h hs
  obtain ⟨z, -, -⟩ := exact_interval someRoot_exact h hO hs w
  have z' := z
  rw [paddle_residual M az hi hphi.1] at z
  have hcp : 0 < cos s.phi := cos_pos_of_mem_Ioo ⟨by linarith [hphi.1], hphi.2⟩
  have hV : rotorWind (paddleRotor.sampled paddleShape n r) 6 (30 / π) (az * (π / 180)) i = (6, r i) := by
    rw [G.wind 6 (30 / π) (az * (π / 180)) hi]
    have hcone : (paddleRotor.sampled paddleShape n r).precone = 0 := by simp [paddleRotor, Rotor.sampled, annulusRotor, demoRotor]
    have hr : (paddleRotor.sampled paddleShape n r).r i = r i := rfl
    rw [hcone, cos_zero, hr, mul_one, mul_one]
    congr 1
    field_simp
  obtain ⟨f1, f2, f3, -⟩ := station_facts (R := paddleRotor.sampled paddleShape n r) rfl (.inr fun _ _ _ => rfl) h hO hs hV (by norm_num) (by linarith)
  have hp : stationPolar (paddleRotor.sampled paddleShape n r) 6 (30 / π) 0 az i s.phi = (0, 1) := rfl
  rw [hp] at f1 f2 f3
  simp only at f1 f2 f3
  rw [stationResidual_const rfl (.inr fun _ _ _ => rfl), hV, hp] at z'
  obtain ⟨-, t⟩ := section_speed (cl := fun _ => 0) (cd := fun _ => 1) (by simp [paddleRotor, Rotor.sampled, annulusRotor, demoRotor]) G.hub (G.range hi).1 (G.range hi).2
    (by norm_num [paddleRotor, Rotor.sampled, paddleShape]) (by norm_num) (by linarith)
    ⟨fun _ _ _ => le_rfl, fun hu => absurd hu (by simp [paddleRotor, Rotor.sampled]), fun hu => absurd hu (by simp [paddleRotor, Rotor.sampled])⟩ hphi z'
    (by
      have hk : kSpec (paddleRotor.sampled paddleShape n r).opts (paddleRotor.sampled paddleShape n r).B ((paddleRotor.sampled paddleShape n r).r i)
          ((paddleRotor.sampled paddleShape n r).chord i) (paddleRotor.sampled paddleShape n r).Rhub (paddleRotor.sampled paddleShape n r).Rtip s.phi 0 1 = 0 := by
        simp [kSpec, cnSpec, paddleRotor, Rotor.sampled]
      rw [hk]
      exact ⟨by norm_num, fun h => by norm_num at h⟩) le_rfl
  have s0 : sectionSwirl (paddleRotor.sampled paddleShape n r).opts (paddleRotor.sampled paddleShape n r).B ((paddleRotor.sampled paddleShape n r).r i)
      ((paddleRotor.sampled paddleShape n r).chord i) (paddleRotor.sampled paddleShape n r).Rhub (paddleRotor.sampled paddleShape n r).Rtip
      (fun _ => 0) (fun _ => 1) s.phi = 0 := by simp [sectionSwirl, paddleRotor, Rotor.sampled]
  rw [s0, sub_zero, div_one] at t
  simp only at t
  rw [← f3] at t
  obtain ⟨a1, a2, a3, -⟩ := distributedAeroLoads_forces _ _ _ _ _ _ _ L h i s hs
  have hch : (paddleRotor.sampled paddleShape n r).chord i = 1 := rfl
  have hrho : (paddleRotor.sampled paddleShape n r).rho = paddleRotor.rho := rfl
  rw [hch] at a2 a3
  rw [hrho] at a1
  have hri : 0 < r i := by linarith
  have hsin : sin s.phi = 6 / r i * cos s.phi := by linarith
  have hq : √(r i ^ 2 + 36) * cos s.phi = r i := by
    have h1 := sin_sq_add_cos_sq s.phi
    rw [hsin] at h1
    have h2 : (r i ^ 2 + 36) * cos s.phi ^ 2 = r i ^ 2 := by
      field_simp at h1
      nlinarith
    rw [← Real.sqrt_sq hcp.le, ← Real.sqrt_mul (by positivity), h2, Real.sqrt_sq hri.le]
  have hWc : s.loads.W ^ 2 * cos s.phi = r i * √(r i ^ 2 + 36) := by
    refine mul_right_cancel₀ hcp.ne' ?_
    rw [mul_assoc, mul_assoc, hq, ← pow_two, t]
    ring
  constructor
  · rw [a2, a1, f1, f2, hsin]
    have : paddleRotor.rho * s.loads.W ^ 2 / 2 * 1 * (0 * cos s.phi + 1 * (6 / r i * cos s.phi))
        = 3 * paddleRotor.rho * (s.loads.W ^ 2 * cos s.phi / r i) := by ring
    rw [hWc] at this
    refine Eq.trans ?_ (this.trans ?_)
    · ring
    · field_simp
  · rw [a3, a1, f1, f2]
    have : paddleRotor.rho * s.loads.W ^ 2 / 2 * 1 * (0 * sin s.phi - 1 * cos s.phi) = -(paddleRotor.rho / 2 * (s.loads.W ^ 2 * cos s.phi)) := by ring
    rw [hWc] at this
    refine Eq.trans ?_ (this.trans ?_)
    · ring
    · ring

end

/-- The hypotheses of `evaluate_refine` are met: every division of `paddleRotor` is analysed, arbitrarily fine divisions exist, and the thrust
converges to the integral of `3 rho √(x² + 36)` over the three blades. -/
example (ε : ℝ) (hε : 0 < ε) : ∃ δ > 0, (∃ n r, StationMesh 1 10 δ n r) ∧ ∀ n r, StationMesh 1 10 δ n r →
    ∃ o x, (evaluate someRoot (paddleRotor.sampled paddleShape n r) [⟨6, 30 / π, 0⟩] false).2 = .ok o ∧ o.conds = [x] ∧
      |x.acc.T.val - trueThrust paddleRotor (fun _ x => 3 * paddleRotor.rho * √(x ^ 2 + 36))| ≤ ε := by
  have hpi := pi_gt_three
  have hO : 30 / π ≠ 0 := by positivity
  have hrho : 0 ≤ paddleRotor.rho := by norm_num [paddleRotor, annulusRotor, demoRotor]
  have hroot : ∀ x ∈ Set.Ioo paddleRotor.Rhub paddleRotor.Rtip, √(x ^ 2 + 36) ≤ 12 := fun x hx => by
    obtain ⟨h1, h2⟩ : 1 < x ∧ x < 10 := hx
    exact (Real.sqrt_le_left (by norm_num)).mpr (by nlinarith)
  obtain ⟨δ, hδ, key⟩ := evaluate_refine (bq := someRoot) (R := paddleRotor) (b := paddleShape) (c := ⟨6, 30 / π, 0⟩)
    (N := fun _ x => 3 * paddleRotor.rho * √(x ^ 2 + 36)) (T := fun _ x => -(paddleRotor.rho / 2 * x * √(x ^ 2 + 36)))
    (by norm_num [paddleRotor, annulusRotor]) (by simp only [paddleRotor, annulusRotor, demoRotor, abs_zero]; positivity)
    (fun k _ d n r M L hL i s hs => (paddle_loads M (Prod.ext rfl hL) hs).1) (fun k _ d n r M L hL i s hs => (paddle_loads M (Prod.ext rfl hL) hs).2)
    (fun k _ => by fun_prop) (fun k _ => by fun_prop) (D := 60 * paddleRotor.rho)
    (fun k _ x hx => by rw [abs_of_nonneg (by positivity)]; nlinarith [hroot x hx])
    (fun k _ x hx => by
      obtain ⟨h1, h2⟩ : 1 < x ∧ x < 10 := hx
      rw [abs_neg, abs_of_nonneg (by positivity)]
      have := mul_le_mul h2.le (hroot x ⟨h1, h2⟩) (Real.sqrt_nonneg _) (by norm_num)
      nlinarith) ε hε
  refine ⟨δ, hδ, uniform_mesh (by norm_num) hδ, fun n r M => ?_⟩
  obtain ⟨o, x, h, -⟩ := evaluate_total someRoot_onlyValueError (paddleRotor.sampled paddleShape n r) ⟨6, 30 / π, 0⟩ false
    (by simp [paddleRotor, Rotor.sampled, annulusRotor, demoRotor]) rfl hO (by simp [paddleRotor, Rotor.sampled, annulusRotor, demoRotor])
  obtain ⟨x, hx⟩ := List.length_eq_one_iff.mp (evaluate_length h)
  exact ⟨o, x, h, hx, (key n r M _ _ o 0 x h rfl (by rw [hx]; rfl)).1⟩

/-- The hypotheses of `evaluate_refine_rate` are met. -/
example (d : ℝ) (n : ℕ) (r : ℕ → ℝ) (M : StationMesh 1 10 d n r) :
    ∃ o x, (evaluate someRoot (paddleRotor.sampled paddleShape n r) [⟨6, 30 / π, 0⟩] false).2 = .ok o ∧ o.conds = [x] ∧
      |x.acc.T.val - trueThrust paddleRotor (fun _ x => 3 * paddleRotor.rho * √(x ^ 2 + 36))| ≤ paddleRotor.B * (cos paddleRotor.precone *
        (3 * paddleRotor.rho * (paddleRotor.Rtip - paddleRotor.Rhub) + 3 * paddleRotor.rho * √136) * d) := by
  have hpi := pi_gt_three
  have hO : 30 / π ≠ 0 := by positivity
  have hrho : 0 ≤ 3 * paddleRotor.rho := by norm_num [paddleRotor, annulusRotor, demoRotor]
  obtain ⟨o, x, h, -⟩ := evaluate_total someRoot_onlyValueError (paddleRotor.sampled paddleShape n r) ⟨6, 30 / π, 0⟩ false
    (by simp [paddleRotor, Rotor.sampled, annulusRotor, demoRotor]) rfl hO (by simp [paddleRotor, Rotor.sampled, annulusRotor, demoRotor])
  obtain ⟨x, hx⟩ := List.length_eq_one_iff.mp (evaluate_length h)
  refine ⟨o, x, h, hx, evaluate_refine_rate (c := ⟨6, 30 / π, 0⟩) (by norm_num [paddleRotor, annulusRotor])
    (by simp only [paddleRotor, annulusRotor, demoRotor, abs_zero]; positivity)
    (fun k _ d n r M L hL i s hs => (paddle_loads M (Prod.ext rfl hL) hs).1) (fun k _ x hx => ?_) (fun k _ x hx y hy => ?_) hrho (by positivity) d n r M
    _ _ o 0 x h rfl (by rw [hx]; rfl)⟩
  · obtain ⟨h1, h2⟩ : 1 ≤ x ∧ x ≤ 10 := hx
    rw [abs_of_nonneg (by positivity)]
    exact mul_le_mul_of_nonneg_left (Real.sqrt_le_sqrt (by nlinarith)) hrho
  · rw [← mul_sub, abs_mul, abs_of_nonneg hrho]
    refine mul_le_mul_of_nonneg_left ?_ hrho
    have a := Real.sq_sqrt (show (0 : ℝ) ≤ x ^ 2 + 36 by positivity)
    have b := Real.sq_sqrt (show (0 : ℝ) ≤ y ^ 2 + 36 by positivity)
    have ax : |x| ≤ √(x ^ 2 + 36) := Real.abs_le_sqrt (by linarith)
    have by' : |y| ≤ √(y ^ 2 + 36) := Real.abs_le_sqrt (by linarith)
    have px : 0 < √(x ^ 2 + 36) := Real.sqrt_pos.mpr (by positivity)
    have py : 0 < √(y ^ 2 + 36) := Real.sqrt_pos.mpr (by positivity)
    have e : |√(x ^ 2 + 36) - √(y ^ 2 + 36)| * (√(x ^ 2 + 36) + √(y ^ 2 + 36)) = |x - y| * |x + y| := by
      rw [← abs_of_pos (add_pos px py), ← abs_mul, ← abs_mul]
      congr 1
      nlinarith
    have h1 : |x + y| ≤ √(x ^ 2 + 36) + √(y ^ 2 + 36) := (abs_add_le _ _).trans (add_le_add ax by')
    have h2 := mul_le_mul_of_nonneg_left h1 (abs_nonneg (x - y))
    rw [← e] at h2
    exact le_of_mul_le_mul_right h2 (add_pos px py)

/-- The hypotheses of `station_mesh_free` are met by stations at 3 and 5 and at 2, 3 and 4. -/
example : ∃ L L' s, (distributedAeroLoads someRoot (paddleRotor.sampled paddleShape 2 fun i => 3 + 2 * i) 6 (30 / π) 0 0).2 = .ok L ∧
    (distributedAeroLoads someRoot (paddleRotor.sampled paddleShape 3 fun i => 2 + i) 6 (30 / π) 0 0).2 = .ok L' ∧
    L.stations[0]? = some s ∧ L'.stations[1]? = some s ∧ s.loads.Np ≠ 0 := by
  have hpi := pi_gt_three
  have hO : (30 / π == (0 : ℝ)) = false := by simp [num_real]
  have M : StationMesh paddleRotor.Rhub paddleRotor.Rtip 10 2 fun i => 3 + 2 * i := by
    constructor <;> norm_num [paddleRotor, annulusRotor]
  have M' : StationMesh paddleRotor.Rhub paddleRotor.Rtip 10 3 fun i => 2 + i := by
    constructor <;> norm_num [paddleRotor, annulusRotor]
  obtain ⟨L, h, hlen, -⟩ := distributedAeroLoads_finds someRoot someRoot_onlyValueError (paddleRotor.sampled paddleShape 2 fun i => 3 + 2 * i) 6 (30 / π) 0 0
    (by simp [paddleRotor, Rotor.sampled, annulusRotor, demoRotor]) rfl hO
  obtain ⟨L', h', hlen', -⟩ := distributedAeroLoads_finds someRoot someRoot_onlyValueError (paddleRotor.sampled paddleShape 3 fun i => 2 + i) 6 (30 / π) 0 0
    (by simp [paddleRotor, Rotor.sampled, annulusRotor, demoRotor]) rfl hO
  obtain ⟨s, hs⟩ : ∃ s, L.stations[0]? = some s := ⟨_, List.getElem?_eq_getElem (by rw [hlen]; simp [Rotor.sampled])⟩
  obtain ⟨s', hs'⟩ : ∃ s, L'.stations[1]? = some s := ⟨_, List.getElem?_eq_getElem (by rw [hlen']; simp [Rotor.sampled])⟩
  have e := station_mesh_free someRoot (R := paddleRotor) rfl (by simp only [paddleRotor, annulusRotor, demoRotor, abs_zero]; positivity) M M' 6 (30 / π) 0 0
    _ _ L L' (Prod.ext rfl h) (Prod.ext rfl h') 0 1 s s' hs hs' (by norm_num)
  refine ⟨L, L', s, h, h', hs, e ▸ hs', ?_⟩
  rw [(paddle_loads M (Prod.ext rfl h) hs).1]
  have hrho : 0 < 3 * paddleRotor.rho := by norm_num [paddleRotor, annulusRotor, demoRotor]
  positivity

end Verif
