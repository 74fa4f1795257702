import Verif.Props.Refine
import Verif.Props.AttachedContinuity

/-! # C120: the results converge when the revolution is divided into more sectors -/

open Real Filter Topology MeasureTheory

namespace Verif

/-! ## Specification -/

/-- Mean over a revolution; the azimuth is in degrees. -/
noncomputable def revolution (f : ℝ → ℝ) : ℝ := (∫ az in (0 : ℝ)..360, f az) / 360

/-- At azimuth `az` the blade reports the loads `N az`, `T az`. -/
def LoadsAround (bq : RootFinder ℝ) (R : Rotor ℝ) (c : Cond ℝ) (N T : ℝ → ℕ → ℝ) : Prop :=
  ∀ az ∈ Set.Icc (0 : ℝ) 360, ∀ L, (distributedAeroLoads bq R c.Uinf c.Omega c.pitch az).2 = .ok L →
    ∀ (i : ℕ) (s : Station ℝ), L.stations[i]? = some s → s.loads.Np = N az i ∧ s.loads.Tp = T az i

/-- Forces and moments of one blade with the loads `N`, `T`. -/
noncomputable def bladeOf (R : Rotor ℝ) (N T : ℕ → ℝ) : TTOut ℝ :=
  thrustTorque R.n N T R.r R.precurve R.presweep R.precone R.Rhub R.Rtip R.precurveTip R.presweepTip

/-- What a blade with the loads `N az`, `T az` contributes to the rotor on average: thrust, side forces, torque and hub moments of `B` blades, and the
root moment of one. -/
structure RevolutionMeans where
  T : ℝ
  Y : ℝ
  Z : ℝ
  Q : ℝ
  My : ℝ
  Mz : ℝ
  Mb : ℝ

noncomputable def revolutionMeans (R : Rotor ℝ) (N T : ℝ → ℕ → ℝ) : RevolutionMeans :=
  let I := fun az => bladeOf R (N az) (T az)
  let c := fun az => cos (az * (π / 180))
  let s := fun az => sin (az * (π / 180))
  { T := R.B * revolution fun az => (I az).T
    Y := R.B * revolution fun az => c az * (I az).Y - s az * (I az).Z
    Z := R.B * revolution fun az => s az * (I az).Y + c az * (I az).Z
    Q := R.B * revolution fun az => (I az).Q
    My := R.B * revolution fun az => c az * (I az).M
    Mz := R.B * revolution fun az => s az * (I az).M
    Mb := revolution fun az => (I az).M }

/-! ## Averages over sectors -/

/-- The mean of samples at the start of `n` equal parts is off the mean by at most the variation over one part. -/
theorem samples_close {f : ℝ → ℝ} {n : ℕ} {e : ℝ} (hn : 0 < n) (hf : ContinuousOn f (Set.Icc 0 360))
    (he : ∀ x ∈ Set.Icc (0 : ℝ) 360, ∀ y ∈ Set.Icc (0 : ℝ) 360, |x - y| ≤ 360 / n → |f x - f y| ≤ e) :
    |(∑ k ∈ Finset.range n, f (k * (360 / n))) / n - revolution f| ≤ e := by
  have hn' : (0 : ℝ) < n := by exact_mod_cast hn
  have hh : (0 : ℝ) < 360 / n := by positivity
  set q : ℕ → ℝ := fun k => k * (360 / n) with hq
  have hstep : ∀ k, q (k + 1) - q k = 360 / n := fun k => by simp only [hq]; push_cast; ring
  have hq0 : q 0 = 0 := by simp [hq]
  have hqn : q n = 360 := by simp only [hq]; field_simp
  have hmem : ∀ k ≤ n, q k ∈ Set.Icc (0 : ℝ) 360 := by
    intro k hk
    have hk' : (k : ℝ) ≤ n := by exact_mod_cast hk
    refine ⟨by positivity, ?_⟩
    rw [← hqn]
    exact mul_le_mul_of_nonneg_right hk' hh.le
  have hle : ∀ k, q k ≤ q (k + 1) := fun k => by linarith [hstep k]
  have hsub : ∀ k < n, Set.uIcc (q k) (q (k + 1)) ⊆ Set.Icc 0 360 := by
    intro k hk
    rw [Set.uIcc_of_le (hle k)]
    exact Set.Icc_subset_Icc (hmem k hk.le).1 (hmem (k + 1) hk).2
  have hint : ∀ k < n, IntervalIntegrable f volume (q k) (q (k + 1)) := fun k hk => (hf.mono (hsub k hk)).intervalIntegrable
  have hsum : ∫ x in (0 : ℝ)..360, f x = ∑ k ∈ Finset.range n, ∫ x in q k..q (k + 1), f x := by
    rw [intervalIntegral.sum_integral_adjacent_intervals hint, hq0, hqn]
  have panel : ∀ k ∈ Finset.range n, |f (q k) * (360 / n) - (∫ x in q k..q (k + 1), f x)| ≤ e * (360 / n) := by
    intro k hk
    have hk := Finset.mem_range.mp hk
    have : f (q k) * (360 / n) - (∫ x in q k..q (k + 1), f x) = ∫ x in q k..q (k + 1), (f (q k) - f x) := by
      rw [intervalIntegral.integral_sub intervalIntegrable_const (hint k hk), intervalIntegral.integral_const, smul_eq_mul, hstep]
      ring
    rw [this, ← Real.norm_eq_abs]
    refine (intervalIntegral.norm_integral_le_of_norm_le_const (C := e) fun x hx => ?_).trans (by rw [hstep, abs_of_pos hh])
    rw [Set.uIoc_of_le (hle k)] at hx
    have hxm : x ∈ Set.Icc (0 : ℝ) 360 := hsub k hk (by rw [Set.uIcc_of_le (hle k)]; exact ⟨hx.1.le, hx.2⟩)
    rw [Real.norm_eq_abs]
    refine he _ (hmem k hk.le) x hxm ?_
    rw [abs_le]
    constructor <;> linarith [hx.1, hx.2, hstep k]
  have key : |∑ k ∈ Finset.range n, (f (q k) * (360 / n) - (∫ x in q k..q (k + 1), f x))| ≤ e * 360 := by
    refine (Finset.abs_sum_le_sum_abs _ _).trans ((Finset.sum_le_sum panel).trans (le_of_eq ?_))
    rw [Finset.sum_const, Finset.card_range, nsmul_eq_mul]
    field_simp
  rw [Finset.sum_sub_distrib, ← hsum, ← Finset.sum_mul] at key
  unfold revolution
  have e1 : (∑ k ∈ Finset.range n, f (k * (360 / n))) / n - (∫ x in (0 : ℝ)..360, f x) / 360
      = ((∑ k ∈ Finset.range n, f (q k)) * (360 / n) - ∫ x in (0 : ℝ)..360, f x) / 360 := by
    simp only [hq]
    rw [sub_div]
    congr 1
    generalize (∑ k ∈ Finset.range n, f (k * (360 / n))) = S
    field_simp
  rw [e1, abs_div, abs_of_pos (by norm_num : (0 : ℝ) < 360), div_le_iff₀ (by norm_num)]
  exact key

/-- Means of samples of a continuous function converge. -/
theorem samples_limit {f : ℝ → ℝ} (hf : ContinuousOn f (Set.Icc 0 360)) :
    Tendsto (fun n : ℕ => (∑ k ∈ Finset.range n, f (k * (360 / n))) / n) atTop (𝓝 (revolution f)) := by
  rw [Metric.tendsto_atTop]
  intro ε hε
  have hu := isCompact_Icc.uniformContinuousOn_of_continuous hf
  rw [Metric.uniformContinuousOn_iff] at hu
  obtain ⟨δ, hδ, h⟩ := hu (ε / 2) (by positivity)
  obtain ⟨n0, hn0⟩ := exists_nat_gt (360 / δ)
  refine ⟨n0 + 1, fun n hn => ?_⟩
  have hn1 : 0 < n := by omega
  have hn' : (0 : ℝ) < n := by exact_mod_cast hn1
  have hnn : (n0 : ℝ) ≤ n := by exact_mod_cast (by omega : n0 ≤ n)
  rw [Real.dist_eq]
  refine lt_of_le_of_lt (samples_close hn1 hf (e := ε / 2) fun x hx y hy hxy => ?_) (by linarith)
  have hlt : |x - y| < δ := by
    refine lt_of_le_of_lt hxy ?_
    rw [div_lt_iff₀ hδ] at hn0
    rw [div_lt_iff₀ hn']
    nlinarith
  have := h x hx y hy (by rw [Real.dist_eq]; exact hlt)
  rw [Real.dist_eq] at this
  exact this.le

/-! ## The blade -/

section
variable {R : Rotor ℝ}

theorem trapz_agree (m : ℕ) {f g s : ℕ → ℝ} (h : ∀ i < m + 1, f i = g i) : trapz m f s = trapz m g s := by
  simp only [trapz, num_real, real_sumTo]
  refine Finset.sum_congr rfl fun i hi => ?_
  have hi := Finset.mem_range.mp hi
  rw [h i (by omega), h (i + 1) (by omega)]

theorem padded_agree (m : ℕ) {f g : ℕ → ℝ} (h : ∀ i < m, f i = g i) {i : ℕ} (hi : i < m + 2) : padded m 0 f 0 i = padded m 0 g 0 i := by
  simp only [padded]
  split_ifs
  · rfl
  · rfl
  · exact h _ (by omega)

theorem bladeOf_agree {N N' T T' : ℕ → ℝ} (hN : ∀ i < R.n, N i = N' i) (hT : ∀ i < R.n, T i = T' i) : bladeOf R N T = bladeOf R N' T' := by
  have h1 := fun i (hi : i < R.n + 2) => padded_agree R.n hN hi
  have h2 := fun i (hi : i < R.n + 2) => padded_agree R.n hT hi
  simp only [bladeOf, thrustTorque, TTOut.mk.injEq]
  refine ⟨trapz_agree _ fun i hi => ?_, trapz_agree _ fun i hi => ?_, trapz_agree _ fun i hi => ?_, trapz_agree _ fun i hi => ?_,
    trapz_agree _ fun i hi => ?_⟩ <;> simp only [h1 i hi, h2 i hi]

theorem bladeOf_tendsto {ι : Type*} {l : Filter ι} {N T : ι → ℕ → ℝ} {N0 T0 : ℕ → ℝ} (hN : ∀ i < R.n, Tendsto (fun n => N n i) l (𝓝 (N0 i)))
    (hT : ∀ i < R.n, Tendsto (fun n => T n i) l (𝓝 (T0 i))) :
    Tendsto (fun n => (bladeOf R (N n) (T n)).T) l (𝓝 (bladeOf R N0 T0).T) ∧ Tendsto (fun n => (bladeOf R (N n) (T n)).Y) l (𝓝 (bladeOf R N0 T0).Y) ∧
      Tendsto (fun n => (bladeOf R (N n) (T n)).Z) l (𝓝 (bladeOf R N0 T0).Z) ∧ Tendsto (fun n => (bladeOf R (N n) (T n)).Q) l (𝓝 (bladeOf R N0 T0).Q) ∧
      Tendsto (fun n => (bladeOf R (N n) (T n)).M) l (𝓝 (bladeOf R N0 T0).M) := by
  simp only [bladeOf, thrustTorque]
  exact ⟨trapz_tendsto _ _ fun i hi => (padded_tendsto _ hN hi).mul_const _, trapz_tendsto _ _ fun i hi => padded_tendsto _ hT hi,
    trapz_tendsto _ _ fun i hi => (padded_tendsto _ hN hi).mul_const _, trapz_tendsto _ _ fun i hi => (padded_tendsto _ hT hi).mul_const _,
    trapz_tendsto _ _ fun i hi => (padded_tendsto _ hN hi).mul_const _⟩

/-- The stations do not depend on the number of sectors. -/
theorem withSectors_loads {bq : RootFinder ℝ} {ns : ℕ} {Uinf Omega pitch az : ℝ} {L : LoadsOut ℝ}
    (hL : (distributedAeroLoads bq (R.withSectors ns) Uinf Omega pitch az).2 = .ok L) :
    ∃ L', (distributedAeroLoads bq R Uinf Omega pitch az).2 = .ok L' ∧ L'.stations = L.stations := by
  apply distributedAeroLoads_of_stations
  have h1 := distributedAeroLoads_stations (Prod.ext rfl hL)
  rw [← h1, show rotorWind (R.withSectors ns) = rotorWind R from rfl]
  exact solveStations_congr fun i _ => SameCore.solveStation (S := R) (R := R.withSectors ns)
    ⟨rfl, rfl, rfl, rfl, rfl, rfl, rfl, rfl⟩ bq _ _ _ i rfl rfl rfl rfl (fun _ => rfl)

end

/-! ## Loads that vary at a bounded rate -/

/-- The function varies at a bounded rate over the revolution. -/
def BoundedRate (f : ℝ → ℝ) : Prop := ∃ K, 0 ≤ K ∧ ∀ y ∈ Set.Icc (0 : ℝ) 360, ∀ z ∈ Set.Icc (0 : ℝ) 360, |f y - f z| ≤ K * |y - z|

theorem BoundedRate.const (a : ℝ) : BoundedRate fun _ => a := ⟨0, le_rfl, fun _ _ _ _ => by simp⟩

theorem BoundedRate.add {f g : ℝ → ℝ} (hf : BoundedRate f) (hg : BoundedRate g) : BoundedRate fun az => f az + g az := by
  obtain ⟨K, k0, k⟩ := hf
  obtain ⟨J, j0, j⟩ := hg
  refine ⟨K + J, by linarith, fun y hy z hz => ?_⟩
  have := abs_add_le (f y - f z) (g y - g z)
  rw [show f y + g y - (f z + g z) = f y - f z + (g y - g z) by ring]
  linarith [k y hy z hz, j y hy z hz]

theorem BoundedRate.mul_const {f : ℝ → ℝ} (hf : BoundedRate f) (a : ℝ) : BoundedRate fun az => f az * a := by
  obtain ⟨K, k0, k⟩ := hf
  refine ⟨K * |a|, by positivity, fun y hy z hz => ?_⟩
  rw [← sub_mul, abs_mul]
  have := mul_le_mul_of_nonneg_right (k y hy z hz) (abs_nonneg a)
  linarith

theorem BoundedRate.sum {f : ℕ → ℝ → ℝ} (m : ℕ) (hf : ∀ i < m, BoundedRate (f i)) : BoundedRate fun az => ∑ i ∈ Finset.range m, f i az := by
  induction m with
  | zero => simpa using BoundedRate.const 0
  | succ m ih =>
    simp only [Finset.sum_range_succ]
    exact (ih fun i hi => hf i (by omega)).add (hf m (by omega))

theorem BoundedRate.trapz {m : ℕ} {f : ℝ → ℕ → ℝ} (s : ℕ → ℝ) (hf : ∀ i < m + 1, BoundedRate fun az => f az i) :
    BoundedRate fun az => Verif.trapz m (f az) s := by
  simp only [Verif.trapz, num_real, real_sumTo]
  refine BoundedRate.sum m fun i hi => BoundedRate.mul_const ?_ _
  simp only [mul_comm]
  exact ((hf i (by omega)).add (hf (i + 1) (by omega))).mul_const _

theorem BoundedRate.padded {m : ℕ} {f : ℝ → ℕ → ℝ} (hf : ∀ i < m, BoundedRate fun az => f az i) {i : ℕ} (hi : i < m + 2) :
    BoundedRate fun az => Verif.padded m 0 (f az) 0 i := by
  simp only [Verif.padded]
  split_ifs
  · exact .const 0
  · exact .const 0
  · exact hf _ (by omega)

theorem BoundedRate.blade {R : Rotor ℝ} {N T : ℝ → ℕ → ℝ} (hN : ∀ i < R.n, BoundedRate fun az => N az i) (hT : ∀ i < R.n, BoundedRate fun az => T az i) :
    (BoundedRate fun az => (bladeOf R (N az) (T az)).T) ∧ (BoundedRate fun az => (bladeOf R (N az) (T az)).Q) ∧
      BoundedRate fun az => (bladeOf R (N az) (T az)).M := by
  simp only [bladeOf, thrustTorque]
  exact ⟨.trapz _ fun i hi => (BoundedRate.padded hN hi).mul_const _, .trapz _ fun i hi => (BoundedRate.padded hT hi).mul_const _,
    .trapz _ fun i hi => (BoundedRate.padded hN hi).mul_const _⟩

theorem BoundedRate.samples {f : ℝ → ℝ} (hf : BoundedRate f) :
    ∃ K, 0 ≤ K ∧ ∀ ns : ℕ, 0 < ns → |(∑ k ∈ Finset.range ns, f (k * (360 / ns))) / ns - revolution f| ≤ K / ns := by
  obtain ⟨K, k0, k⟩ := hf
  refine ⟨K * 360, by positivity, fun ns hns => ?_⟩
  rw [mul_div_assoc]
  refine samples_close hns ?_ fun y hy z hz hyz => (k y hy z hz).trans (mul_le_mul_of_nonneg_left hyz k0)
  have : LipschitzOnWith ⟨K, k0⟩ f (Set.Icc 0 360) := LipschitzOnWith.of_dist_le_mul fun y hy z hz => by
    rw [Real.dist_eq, Real.dist_eq]
    exact k y hy z hz
  exact this.continuousOn

/-- A continuously differentiable function varies at a bounded rate. -/
theorem BoundedRate.of_contDiff {f : ℝ → ℝ} (hf : ContDiff ℝ 1 f) : BoundedRate f := by
  obtain ⟨K, hK⟩ := isCompact_Icc.exists_bound_of_continuousOn (s := Set.Icc (0 : ℝ) 360) (hf.continuous_deriv le_rfl).continuousOn
  refine ⟨|K|, abs_nonneg K, fun y hy z hz => ?_⟩
  have := (convex_Icc (0 : ℝ) 360).norm_image_sub_le_of_norm_deriv_le (f := f) (C := |K|)
    (fun x _ => (hf.differentiable one_ne_zero).differentiableAt) (fun x hx => (hK x hx).trans (le_abs_self K)) hz hy
  simpa [Real.norm_eq_abs] using this

/-! ## The rotor -/

section
variable {bq : RootFinder ℝ} {R : Rotor ℝ} {c : Cond ℝ} {N T : ℝ → ℕ → ℝ}

/-- The outputs with `ns` sectors are means of samples of one blade. -/
theorem sector_samples (hL : LoadsAround bq R c N T) {ns : ℕ} (hns : 0 < ns) {cs : List (Cond ℝ)} {co : Bool} {o : EvalOut ℝ}
    (h : (evaluate bq (R.withSectors ns) cs co).2 = .ok o) {m : ℕ} {x : CondOut ℝ} (hc : cs[m]? = some c) (hx : o.conds[m]? = some x) :
    let I := fun az => bladeOf R (N az) (T az)
    let mean := fun f : ℝ → ℝ => (∑ k ∈ Finset.range ns, f (k * (360 / ns))) / ns
    x.acc.T.val = R.B * mean (fun az => (I az).T) ∧ x.acc.Q.val = R.B * mean (fun az => (I az).Q) ∧ x.acc.Mb.val = mean (fun az => (I az).M) ∧
      x.acc.Y.val = R.B * mean (fun az => cos (az * (π / 180)) * (I az).Y - sin (az * (π / 180)) * (I az).Z) ∧
      x.acc.Z.val = R.B * mean (fun az => sin (az * (π / 180)) * (I az).Y + cos (az * (π / 180)) * (I az).Z) ∧
      x.acc.My.val = R.B * mean (fun az => cos (az * (π / 180)) * (I az).M) ∧ x.acc.Mz.val = R.B * mean (fun az => sin (az * (π / 180)) * (I az).M) ∧
      x.P.val = x.acc.Q.val * (c.Omega * (π / 30)) := by
  intro I mean
  have hn' : (0 : ℝ) < ns := by exact_mod_cast hns
  obtain ⟨L, hk, eT, eQ, eM, eY, eZ, eMy, eMz, -⟩ := sector_averages h hc hx
  have hI : ∀ k ∈ Finset.range ns, bladeInt (R.withSectors ns) (L k) = I (k * (360 / ns)) := by
    intro k hkm
    have hlt := Finset.mem_range.mp hkm
    have hlt' : (k : ℝ) ≤ ns := by exact_mod_cast hlt.le
    have haz : (k : ℝ) * (360 / ns) ∈ Set.Icc (0 : ℝ) 360 := by
      refine ⟨by positivity, ?_⟩
      rw [← mul_div_assoc, div_le_iff₀ hn']
      nlinarith
    obtain ⟨L', h1, h2⟩ := withSectors_loads (hk k hlt)
    have hlen := (solveStations_ok (distributedAeroLoads_stations (Prod.ext rfl h1 :
      distributedAeroLoads bq R c.Uinf c.Omega c.pitch (k * (360 / ns)) = (_, .ok L')))).1
    have key : ∀ i < R.n, stationArr (L k).stations SecLoads.Np i = N (k * (360 / ns)) i ∧ stationArr (L k).stations SecLoads.Tp i = T (k * (360 / ns)) i := by
      intro i hi
      have hs : L'.stations[i]? = some L'.stations[i] := List.getElem?_eq_getElem (by omega)
      obtain ⟨a1, a2⟩ := hL _ haz L' h1 i _ hs
      rw [← h2]
      simp only [stationArr, hs, Option.map_some, Option.getD_some]
      exact ⟨a1, a2⟩
    exact bladeOf_agree (R := R) (fun i hi => (key i hi).1) (fun i hi => (key i hi).2)
  have hpsi : ∀ k : ℕ, 2 * π * k / ((R.withSectors ns).nSector : ℝ) = k * (360 / ns) * (π / 180) := by
    intro k
    rw [show (R.withSectors ns).nSector = ns from rfl]
    ring
  have hsum : ∀ f : TTOut ℝ → ℝ → ℝ, (∑ k ∈ Finset.range ns, f (bladeInt (R.withSectors ns) (L k)) (k * (360 / ns) * (π / 180)))
      = ∑ k ∈ Finset.range ns, f (I (k * (360 / ns))) (k * (360 / ns) * (π / 180)) :=
    fun f => Finset.sum_congr rfl fun k hk => by rw [hI k hk]
  simp only [hpsi] at eY eZ eMy eMz
  rw [show (R.withSectors ns).nSector = ns from rfl] at eT eQ eM eY eZ eMy eMz
  rw [show (R.withSectors ns).B = R.B from rfl] at eT eQ eY eZ eMy eMz
  have eP := (evaluate_entry h hc hx).2.1
  refine ⟨eT.trans ?_, eQ.trans ?_, eM.trans ?_, eY.trans ?_, eZ.trans ?_, eMy.trans ?_, eMz.trans ?_, ?_⟩
  · exact congrArg (fun s : ℝ => (R.B : ℝ) * (s / ns)) (hsum fun t _ => t.T)
  · exact congrArg (fun s : ℝ => (R.B : ℝ) * (s / ns)) (hsum fun t _ => t.Q)
  · exact congrArg (fun s : ℝ => s / ns) (hsum fun t _ => t.M)
  · exact congrArg (fun s : ℝ => (R.B : ℝ) * (s / ns)) (hsum fun t a => cos a * t.Y - sin a * t.Z)
  · exact congrArg (fun s : ℝ => (R.B : ℝ) * (s / ns)) (hsum fun t a => sin a * t.Y + cos a * t.Z)
  · exact congrArg (fun s : ℝ => (R.B : ℝ) * (s / ns)) (hsum fun t a => cos a * t.M)
  · exact congrArg (fun s : ℝ => (R.B : ℝ) * (s / ns)) (hsum fun t a => sin a * t.M)
  · rw [eP]
    simp only [power, num_real]
    push_cast
    ring

/-- **C120** A rotor in any wind (tilt, yaw, shear) whose blade loads are continuous over the revolution: as the number of sectors grows, thrust,
side forces, torque, hub moments, blade root moment and power tend to the means over the revolution. -/
theorem evaluate_sectors (hL : LoadsAround bq R c N T) (hN : ∀ i < R.n, ContinuousOn (fun az => N az i) (Set.Icc 0 360))
    (hT : ∀ i < R.n, ContinuousOn (fun az => T az i) (Set.Icc 0 360)) (cs : ℕ → List (Cond ℝ)) (co : ℕ → Bool) (o : ℕ → EvalOut ℝ) (m : ℕ → ℕ)
    (x : ℕ → CondOut ℝ) (h : ∀ᶠ ns in atTop, (evaluate bq (R.withSectors ns) (cs ns) (co ns)).2 = .ok (o ns) ∧ (cs ns)[m ns]? = some c ∧
      (o ns).conds[m ns]? = some (x ns)) :
    let M := revolutionMeans R N T
    Tendsto (fun ns => (x ns).acc.T.val) atTop (𝓝 M.T) ∧ Tendsto (fun ns => (x ns).acc.Y.val) atTop (𝓝 M.Y) ∧
      Tendsto (fun ns => (x ns).acc.Z.val) atTop (𝓝 M.Z) ∧ Tendsto (fun ns => (x ns).acc.Q.val) atTop (𝓝 M.Q) ∧
      Tendsto (fun ns => (x ns).acc.My.val) atTop (𝓝 M.My) ∧ Tendsto (fun ns => (x ns).acc.Mz.val) atTop (𝓝 M.Mz) ∧
      Tendsto (fun ns => (x ns).acc.Mb.val) atTop (𝓝 M.Mb) ∧ Tendsto (fun ns => (x ns).P.val) atTop (𝓝 (M.Q * (c.Omega * (π / 30)))) := by
  intro M
  have key : ∀ az ∈ Set.Icc (0 : ℝ) 360, _ := fun az haz => bladeOf_tendsto (R := R) (l := 𝓝[Set.Icc 0 360] az) (N := N) (T := T) (N0 := N az) (T0 := T az)
    (fun i hi => hN i hi az haz) (fun i hi => hT i hi az haz)
  have cT : ContinuousOn (fun az => (bladeOf R (N az) (T az)).T) (Set.Icc 0 360) := fun az haz => (key az haz).1
  have cY : ContinuousOn (fun az => (bladeOf R (N az) (T az)).Y) (Set.Icc 0 360) := fun az haz => (key az haz).2.1
  have cZ : ContinuousOn (fun az => (bladeOf R (N az) (T az)).Z) (Set.Icc 0 360) := fun az haz => (key az haz).2.2.1
  have cQ : ContinuousOn (fun az => (bladeOf R (N az) (T az)).Q) (Set.Icc 0 360) := fun az haz => (key az haz).2.2.2.1
  have cM : ContinuousOn (fun az => (bladeOf R (N az) (T az)).M) (Set.Icc 0 360) := fun az haz => (key az haz).2.2.2.2
  have cc : ContinuousOn (fun az : ℝ => cos (az * (π / 180))) (Set.Icc 0 360) := by fun_prop
  have cs' : ContinuousOn (fun az : ℝ => sin (az * (π / 180))) (Set.Icc 0 360) := by fun_prop
  have ev : ∀ᶠ ns in atTop, _ := (h.and (eventually_gt_atTop 0)).mono fun ns hns => sector_samples hL hns.2 hns.1.1 hns.1.2.1 hns.1.2.2
  have tQ : Tendsto (fun ns => (x ns).acc.Q.val) atTop (𝓝 M.Q) :=
    ((samples_limit cQ).const_mul (R.B : ℝ)).congr' (ev.mono fun ns e => e.2.1.symm)
  refine ⟨?_, ?_, ?_, tQ, ?_, ?_, ?_, ?_⟩
  · exact ((samples_limit cT).const_mul (R.B : ℝ)).congr' (ev.mono fun ns e => e.1.symm)
  · exact ((samples_limit ((cc.mul cY).sub (cs'.mul cZ))).const_mul (R.B : ℝ)).congr' (ev.mono fun ns e => e.2.2.2.1.symm)
  · exact ((samples_limit ((cs'.mul cY).add (cc.mul cZ))).const_mul (R.B : ℝ)).congr' (ev.mono fun ns e => e.2.2.2.2.1.symm)
  · exact ((samples_limit (cc.mul cM)).const_mul (R.B : ℝ)).congr' (ev.mono fun ns e => e.2.2.2.2.2.1.symm)
  · exact ((samples_limit (cs'.mul cM)).const_mul (R.B : ℝ)).congr' (ev.mono fun ns e => e.2.2.2.2.2.2.1.symm)
  · exact (samples_limit cM).congr' (ev.mono fun ns e => e.2.2.1.symm)
  · exact (tQ.mul_const _).congr' (ev.mono fun ns e => e.2.2.2.2.2.2.2.symm)

/-- **C120** The error is of first order in the size of a sector: if the loads of each station vary at a bounded rate with the azimuth, then `ns` sectors
give the mean thrust, torque, root moment and power up to a constant over `ns`. -/
theorem evaluate_sectors_rate (hL : LoadsAround bq R c N T) (hN : ∀ i < R.n, BoundedRate fun az => N az i) (hT : ∀ i < R.n, BoundedRate fun az => T az i) :
    ∃ C, ∀ ns : ℕ, 0 < ns → ∀ (cs : List (Cond ℝ)) (co : Bool) (o : EvalOut ℝ) (m : ℕ) (x : CondOut ℝ),
      (evaluate bq (R.withSectors ns) cs co).2 = .ok o → cs[m]? = some c → o.conds[m]? = some x →
        let M := revolutionMeans R N T
        |x.acc.T.val - M.T| ≤ C / ns ∧ |x.acc.Q.val - M.Q| ≤ C / ns ∧ |x.acc.Mb.val - M.Mb| ≤ C / ns ∧
          |x.P.val - M.Q * (c.Omega * (π / 30))| ≤ C / ns := by
  obtain ⟨bT, bQ, bM⟩ := BoundedRate.blade (R := R) hN hT
  obtain ⟨KT, kT0, kT⟩ := bT.samples
  obtain ⟨KQ, kQ0, kQ⟩ := bQ.samples
  obtain ⟨KM, kM0, kM⟩ := bM.samples
  have hB : (0 : ℝ) ≤ R.B := by positivity
  set w := c.Omega * (π / 30) with hw
  refine ⟨R.B * KT + R.B * KQ + KM + R.B * KQ * |w|, fun ns hns cs co o m x h hc hx => ?_⟩
  have hn : (0 : ℝ) < ns := by exact_mod_cast hns
  intro M
  obtain ⟨eT, eQ, eM, -, -, -, -, eP⟩ := sector_samples hL hns h hc hx
  have p1 : 0 ≤ R.B * KT := mul_nonneg hB kT0
  have p2 : 0 ≤ R.B * KQ := mul_nonneg hB kQ0
  have p3 := mul_nonneg p2 (abs_nonneg w)
  have up : ∀ {e y : ℝ}, |e| ≤ y / ns → y ≤ R.B * KT + R.B * KQ + KM + R.B * KQ * |w| → |e| ≤ (R.B * KT + R.B * KQ + KM + R.B * KQ * |w|) / ns :=
    fun h1 h2 => h1.trans (div_le_div_of_nonneg_right h2 hn.le)
  have hTb : |x.acc.T.val - M.T| ≤ R.B * KT / ns := by
    rw [eT, show M.T = R.B * revolution fun az => (bladeOf R (N az) (T az)).T from rfl, ← mul_sub, abs_mul, abs_of_nonneg hB, mul_div_assoc]
    exact mul_le_mul_of_nonneg_left (kT ns hns) hB
  have hQb : |x.acc.Q.val - M.Q| ≤ R.B * KQ / ns := by
    rw [eQ, show M.Q = R.B * revolution fun az => (bladeOf R (N az) (T az)).Q from rfl, ← mul_sub, abs_mul, abs_of_nonneg hB, mul_div_assoc]
    exact mul_le_mul_of_nonneg_left (kQ ns hns) hB
  refine ⟨up hTb (by linarith), up hQb (by linarith), up (y := KM) ?_ (by linarith), up (y := R.B * KQ * |w|) ?_ (by linarith)⟩
  · rw [eM]
    exact kM ns hns
  · rw [eP, ← sub_mul, abs_mul, mul_div_right_comm]
    exact mul_le_mul_of_nonneg_right hQb (abs_nonneg w)

end

/-! ## Continuity over the revolution in attached flow -/

/-- The inflow is continuous in the azimuth where the station stays above the ground. -/
theorem rotorWind_continuous {R : Rotor ℝ} {i : ℕ} {U O : ℝ}
    (hz : ∀ az, 0 < relHeight R.r R.precurve R.presweep ⟨R.precone, R.yaw, R.tilt, az, U, O, R.hubHt, R.shearExp⟩ i) :
    Continuous fun az : ℝ => rotorWind R U O (az * (π / 180)) i := by
  have hV : Continuous fun az : ℝ => shearedWind U (heightFromHub ((defineCurvature R.n R.r R.precurve R.presweep R.precone).x_az i)
      ((defineCurvature R.n R.r R.precurve R.presweep R.precone).y_az i) ((defineCurvature R.n R.r R.precurve R.presweep R.precone).z_az i) R.tilt
      (az * (π / 180))) R.hubHt R.shearExp := by
    simp only [shearedWind, num_real]
    refine continuous_const.mul (Continuous.rpow_const ?_ fun az => .inl ?_)
    · simp only [heightFromHub, num_real]
      fun_prop
    · have := hz (az * (π / 180))
      rw [← relHeight_eq] at this
      exact this.ne'
  simp only [rotorWind, windComponents]
  simp only [num_real]
  refine Continuous.prodMk ?_ ?_
  · exact (hV.mul (by fun_prop)).add continuous_const
  · exact (hV.mul (by fun_prop)).add continuous_const

/-- **C120** In attached flow the loads vary continuously around the revolution, with no smoothness asked of the airfoils beyond continuity. -/
theorem attached_revolution {bq : RootFinder ℝ} (hbq : ExactRoots bq) {R : Rotor ℝ} {c : Cond ℝ} (hinv : R.inv = none) (hO : c.Omega ≠ 0)
    (hmu : R.mu ≠ 0) (hre : ∀ i < R.n, FixedRe R i) (hcont : ∀ i < R.n, Continuous fun x : ℝ × ℝ => (R.af i).evaluate x.1 x.2)
    (hz : ∀ i < R.n, ∀ az, 0 < relHeight R.r R.precurve R.presweep ⟨R.precone, R.yaw, R.tilt, az, c.Uinf, c.Omega, R.hubHt, R.shearExp⟩ i)
    (hsol : ∀ az ∈ Set.Icc (0 : ℝ) 360, ∃ L, (distributedAeroLoads bq R c.Uinf c.Omega c.pitch az).2 = .ok L ∧
      ∀ (i : ℕ) (s : Station ℝ), L.stations[i]? = some s →
        AttachedStation R c.Uinf c.Omega c.pitch az i ∧ SolvedWithLift R c.Uinf c.Omega c.pitch az i s) :
    ∃ N T, LoadsAround bq R c N T ∧ (∀ i < R.n, ContinuousOn (fun az => N az i) (Set.Icc 0 360)) ∧
      ∀ i < R.n, ContinuousOn (fun az => T az i) (Set.Icc 0 360) := by
  choose L hL hst using hsol
  have len : ∀ az haz, (L az haz).stations.length = R.n := fun az haz => by
    have e : distributedAeroLoads bq R c.Uinf c.Omega c.pitch az = (_, .ok (L az haz)) := Prod.ext rfl (hL az haz)
    exact (solveStations_ok (distributedAeroLoads_stations e)).1
  have hget : ∀ i < R.n, ∀ az haz, ∃ s, (L az haz).stations[i]? = some s := fun i hi az haz =>
    ⟨_, List.getElem?_eq_getElem (by rw [len]; exact hi)⟩
  choose st hgs using hget
  classical
  refine ⟨fun az i => if h : az ∈ Set.Icc (0 : ℝ) 360 ∧ i < R.n then (st i h.2 az h.1).loads.Np else 0,
    fun az i => if h : az ∈ Set.Icc (0 : ℝ) 360 ∧ i < R.n then (st i h.2 az h.1).loads.Tp else 0, ?_, ?_, ?_⟩
  · intro az haz L' hL' i s hs
    obtain rfl : L' = L az haz := Except.ok.inj (hL'.symm.trans (hL az haz))
    have hi : i < R.n := by
      rw [← len az haz]
      exact (List.getElem?_eq_some_iff.mp hs).1
    obtain rfl : s = st i hi az haz := Option.some.inj (hs.symm.trans (hgs i hi az haz))
    simp only [dif_pos (show az ∈ Set.Icc (0 : ℝ) 360 ∧ i < R.n from ⟨haz, hi⟩), and_self]
  all_goals
    intro i hi
    rw [continuousOn_iff_continuous_domRestrict, continuous_iff_continuousAt]
    intro a0
    have key := attached_station_limit (l := 𝓝 a0) (R := fun _ => R) (R0 := R) (i := i) (U := fun _ => c.Uinf) (O := fun _ => c.Omega)
      (pitch := fun _ => c.pitch) (az := fun a : Set.Icc (0 : ℝ) 360 => (a : ℝ)) hbq ⟨fun _ => rfl, fun _ => rfl,
        fun u v p q hu hv => ((hcont i hi).tendsto (p, q)).comp (hu.prodMk_nhds hv), tendsto_const_nhds,
        tendsto_const_nhds, tendsto_const_nhds, tendsto_const_nhds, tendsto_const_nhds, tendsto_const_nhds, tendsto_const_nhds⟩ hmu (fun _ => hinv) hinv
      (fun _ => hre i hi) (hre i hi) tendsto_const_nhds (L := fun a => L a a.2) (L0 := L a0 a0.2) (fun a => Prod.ext rfl (hL a a.2))
      (Prod.ext rfl (hL a0 a0.2)) (fun a => st i hi a a.2) (st i hi a0 a0.2) (fun a => hgs i hi a a.2) (hgs i hi a0 a0.2) (fun _ => hO) hO
      (fun a => (hst a a.2 i _ (hgs i hi a a.2)).1) (hst a0 a0.2 i _ (hgs i hi a0 a0.2)).1 (fun a => (hst a a.2 i _ (hgs i hi a a.2)).2)
      (hst a0 a0.2 i _ (hgs i hi a0 a0.2)).2 (((rotorWind_continuous (hz i hi)).comp continuous_subtype_val).tendsto a0)
    have hd : ∀ a : Set.Icc (0 : ℝ) 360, (a : ℝ) ∈ Set.Icc (0 : ℝ) 360 ∧ i < R.n := fun a => ⟨a.2, hi⟩
    simp only [ContinuousAt, Set.domRestrict_def, dif_pos (hd _)]
  · exact key.2.2.2.1
  · exact key.2.2.2.2

/-- **C120** In attached flow the rotor results converge when the revolution is divided into more and more sectors, and the limit is the mean over the
revolution of what the blade reports. -/
theorem evaluate_sectors_attached {bq : RootFinder ℝ} (hbq : ExactRoots bq) {R : Rotor ℝ} {c : Cond ℝ} (hinv : R.inv = none) (hO : c.Omega ≠ 0)
    (hmu : R.mu ≠ 0) (hre : ∀ i < R.n, FixedRe R i) (hcont : ∀ i < R.n, Continuous fun x : ℝ × ℝ => (R.af i).evaluate x.1 x.2)
    (hz : ∀ i < R.n, ∀ az, 0 < relHeight R.r R.precurve R.presweep ⟨R.precone, R.yaw, R.tilt, az, c.Uinf, c.Omega, R.hubHt, R.shearExp⟩ i)
    (hsol : ∀ az ∈ Set.Icc (0 : ℝ) 360, ∃ L, (distributedAeroLoads bq R c.Uinf c.Omega c.pitch az).2 = .ok L ∧
      ∀ (i : ℕ) (s : Station ℝ), L.stations[i]? = some s →
        AttachedStation R c.Uinf c.Omega c.pitch az i ∧ SolvedWithLift R c.Uinf c.Omega c.pitch az i s)
    (cs : ℕ → List (Cond ℝ)) (co : ℕ → Bool) (o : ℕ → EvalOut ℝ) (m : ℕ → ℕ)
    (x : ℕ → CondOut ℝ) (h : ∀ᶠ ns in atTop, (evaluate bq (R.withSectors ns) (cs ns) (co ns)).2 = .ok (o ns) ∧ (cs ns)[m ns]? = some c ∧
      (o ns).conds[m ns]? = some (x ns)) :
    ∃ N T, LoadsAround bq R c N T ∧ Tendsto (fun ns => (x ns).acc.T.val) atTop (𝓝 (revolutionMeans R N T).T) ∧
      Tendsto (fun ns => (x ns).acc.Q.val) atTop (𝓝 (revolutionMeans R N T).Q) ∧
      Tendsto (fun ns => (x ns).P.val) atTop (𝓝 ((revolutionMeans R N T).Q * (c.Omega * (π / 30)))) := by
  obtain ⟨N, T, k, kN, kT⟩ := attached_revolution hbq hinv hO hmu hre hcont hz hsol
  have := evaluate_sectors k kN kT cs co o m x h
  exact ⟨N, T, k, this.1, this.2.2.2.1, this.2.2.2.2.2.2.2⟩

/-! ## An example -/

/-- `paddleRotor` in a wind from the side: the loads differ between azimuths. -/
noncomputable def yawPaddle : Rotor ℝ := { paddleRotor with yaw := π / 6, af := fun _ => paddleShape.af 0 }

theorem yawPaddle_wind (az : ℝ) {i : ℕ} (hi : i < 2) : rotorWind yawPaddle 6 (30 / π) az i = (6 * cos (π / 6), 6 + i - 3 * cos az) := by
  have hpi := pi_pos
  have hcone : (defineCurvature yawPaddle.n yawPaddle.r yawPaddle.precurve yawPaddle.presweep yawPaddle.precone).cone i = 0 := by
    have := cone_of_straight_blade 2 le_rfl yawPaddle.r yawPaddle.precurve yawPaddle.presweep yawPaddle.precone
      (by simp only [yawPaddle, paddleRotor, annulusRotor, demoRotor]; constructor <;> linarith)
      (fun j hj => by simp [yawPaddle, paddleRotor, annulusRotor]) (fun j _ => rfl) i hi
    simpa [yawPaddle, paddleRotor, annulusRotor, demoRotor] using this
  unfold rotorWind windComponents
  simp only [hcone, num_real]
  simp [defineCurvature, zAz, yAz, shearedWind, num_real, yawPaddle, paddleRotor, annulusRotor, demoRotor]
  ring

theorem yawPaddle_k (i : ℕ) (p : ℝ) :
    lossSpec yawPaddle.opts yawPaddle.B (yawPaddle.r i) yawPaddle.Rhub yawPaddle.Rtip p = 1 ∧
    kSpec yawPaddle.opts yawPaddle.B (yawPaddle.r i) (yawPaddle.chord i) yawPaddle.Rhub yawPaddle.Rtip p 0 1 = 0 :=
  ⟨by simp [lossSpec, yawPaddle, paddleRotor], by simp [kSpec, cnSpec, yawPaddle, paddleRotor]⟩

theorem yawPaddle_range {i : ℕ} (hi : i < 2) : 1 < yawPaddle.r i ∧ yawPaddle.r i < 10 := by
  have hr : yawPaddle.r i = 6 + i := rfl
  have h1 : (i : ℝ) ≤ 1 := by exact_mod_cast Nat.lt_succ_iff.mp hi
  have h0 : (0 : ℝ) ≤ i := by positivity
  rw [hr]
  constructor <;> linarith

theorem yawPaddle_residual (az : ℝ) {i : ℕ} (hi : i < 2) {p : ℝ} (h0 : 0 < p) :
    stationResidual yawPaddle 6 (30 / π) 0 az i p = sin p - 6 * cos (π / 6) / (6 + i - 3 * cos (az * (π / 180))) * cos p := by
  have hpi := pi_pos
  rw [stationResidual_const rfl (.inr fun _ _ _ => rfl), yawPaddle_wind _ hi, (indOut_eq _ _ _ _ _ _ _ _ _ _ _).2.2]
  have hp : stationPolar yawPaddle 6 (30 / π) 0 az i p = (0, 1) := rfl
  rw [hp]
  simp only
  rw [(yawPaddle_k i p).1, (yawPaddle_k i p).2]
  have hw := inv_axial_wake (F := 1) (k := 0) h0 one_pos (by norm_num) (by intro h; norm_num at h)
  simp only [bemResidual, if_pos h0]
  rw [div_eq_mul_one_div (sin p), hw]
  have hwr : yawPaddle.opts.wakeRot = false := rfl
  rw [hwr]
  unfold wakeOf
  rw [if_pos (by norm_num)]
  simp only [Bool.false_eq_true, if_false]
  rw [mul_div_assoc, ← mul_one_div (cos p), one_div_div]
  ring

theorem yawPaddle_inflow (az : ℝ) {i : ℕ} : 0 < 6 * cos (π / 6) ∧ 0 < 6 + i - 3 * cos az ∧ 1 / 10 ≤ 6 * cos (π / 6) / (6 + i - 3 * cos az) ∨ 2 ≤ i := by
  by_cases hi : i < 2
  · left
    have h1 : (i : ℝ) ≤ 1 := by exact_mod_cast Nat.lt_succ_iff.mp hi
    have h0 : (0 : ℝ) ≤ i := by positivity
    have c1 := cos_le_one az
    have c2 := neg_one_le_cos az
    have c3 : 1 / 2 ≤ cos (π / 6) := by
      rw [cos_pi_div_six]
      have : (1 : ℝ) ≤ √3 := by rw [Real.one_le_sqrt]; norm_num
      linarith
    refine ⟨by linarith, by linarith, ?_⟩
    rw [div_le_div_iff₀ (by norm_num) (by linarith)]
    nlinarith
  · right; omega

theorem yawPaddle_station {az : ℝ} {R' : Rotor ℝ} {L : LoadsOut ℝ} (h : distributedAeroLoads someRoot yawPaddle 6 (30 / π) 0 az = (R', .ok L)) {i : ℕ}
    {s : Station ℝ} (hs : L.stations[i]? = some s) :
    AttachedStation yawPaddle 6 (30 / π) 0 az i ∧ SolvedWithLift yawPaddle 6 (30 / π) 0 az i s := by
  have hpi := pi_gt_three
  have hO : 30 / π ≠ 0 := by positivity
  have hi : i < 2 := (loads_station h hs).1
  obtain ⟨hx0, hy0, hx⟩ := (yawPaddle_inflow (az * (π / 180)) (i := i)).resolve_right (by omega)
  have hle : (1 / 1000000 : ℝ) ≤ π / 2 := by linarith
  obtain ⟨d, h1, -⟩ := solveStation_real (loads_station h hs).2
  have hf : stationErrf yawPaddle (deg2rad 0) (rotorWind yawPaddle 6 (30 / π) (deg2rad az)) i = stationResidual yawPaddle 6 (30 / π) 0 az i := rfl
  unfold stationPhi at h1
  rw [if_neg (by simp [num_real]), hf, if_neg (by simp [yawPaddle, paddleRotor, annulusRotor, demoRotor])] at h1
  have e := fun phi h0 => yawPaddle_residual az hi (p := phi) h0
  set f := stationResidual yawPaddle 6 (30 / π) 0 az i
  set v := 6 * cos (π / 6) / (6 + i - 3 * cos (az * (π / 180))) with hv
  have f2 : f (π / 2) = 1 := by rw [e _ (by linarith), sin_pi_div_two, cos_pi_div_two]; norm_num
  have hsign : f (1 / 1000000) * f (π / 2) ≤ 0 := by
    rw [f2, mul_one, e _ (by norm_num)]
    have s1 : sin (1 / 1000000) ≤ 1 / 1000000 := sin_le (by norm_num)
    have c1 : 1 / 2 ≤ cos (1 / 1000000) := by
      have := one_sub_sq_div_two_le_cos (x := 1 / 1000000)
      norm_num at this ⊢
      linarith
    have h4 : 1 / 10 * (1 / 2) ≤ v * cos (1 / 1000000) := mul_le_mul hx c1 (by norm_num) (by linarith)
    linarith
  have hcont : ContinuousOn f (Set.Icc (1 / 1000000) (π / 2)) := by
    refine ContinuousOn.congr (f := fun phi => sin phi - v * cos phi) (by fun_prop) ?_
    intro phi hp
    exact e phi (lt_of_lt_of_le (by norm_num) hp.1)
  obtain ⟨p, e1, e2, e3⟩ := someRoot_finds f _ _ hle hcont hsign
  unfold solvePhi at h1
  rw [(bracket_choice f).1 hsign] at h1
  simp only [e1, Except.ok.injEq, Prod.mk.injEq] at h1
  have hphi : s.phi ∈ Set.Ioo 0 (π / 2) := by
    rw [← h1.1]
    refine ⟨lt_of_lt_of_le (by norm_num) e3.1, lt_of_le_of_ne e3.2 fun h0 => ?_⟩
    rw [h0, f2] at e2
    norm_num at e2
  have hV := yawPaddle_wind (az * (π / 180)) hi
  obtain ⟨f1, -⟩ := station_facts (R := yawPaddle) rfl (.inr fun _ _ _ => rfl) h hO hs hV hx0.ne' hy0.ne'
  refine ⟨⟨by simp [yawPaddle, paddleRotor, annulusRotor, demoRotor], by simp [yawPaddle, paddleRotor, annulusRotor], (yawPaddle_range hi).1,
    (yawPaddle_range hi).2, by simp [yawPaddle, paddleRotor, annulusRotor], by rw [hV]; exact hx0, by rw [hV]; exact hy0, ?_⟩, h1.2.symm, hphi, ?_, ?_⟩
  · exact ⟨fun _ _ _ => le_rfl, fun hu => absurd hu (by simp [yawPaddle, paddleRotor]), fun hu => absurd hu (by simp [yawPaddle, paddleRotor])⟩
  · rw [f1]
    exact le_rfl
  · unfold RegularAngle
    have hp : stationPolar yawPaddle 6 (30 / π) 0 az i s.phi = (0, 1) := rfl
    rw [hp]
    simp only
    rw [(yawPaddle_k i _).1, (yawPaddle_k i _).2]
    exact ⟨by norm_num, fun h => by norm_num at h⟩

/-- The hypotheses of `evaluate_sectors_attached` are met by a rotor in a wind from the side: every number of sectors is analysed, the inflow differs
between azimuths, and the thrust converges to the mean over the revolution. -/
example : ∃ N T, LoadsAround someRoot yawPaddle ⟨6, 30 / π, 0⟩ N T ∧
    rotorWind yawPaddle 6 (30 / π) (0 * (π / 180)) 0 ≠ rotorWind yawPaddle 6 (30 / π) (180 * (π / 180)) 0 ∧
    ∀ ε > 0, ∃ n0, ∀ ns ≥ n0, ∃ o x, (evaluate someRoot (yawPaddle.withSectors ns) [⟨6, 30 / π, 0⟩] false).2 = .ok o ∧ o.conds = [x] ∧
      |x.acc.T.val - (revolutionMeans yawPaddle N T).T| < ε := by
  have hpi := pi_gt_three
  have hO : 30 / π ≠ 0 := by positivity
  have tot : ∀ ns, ns ≠ 0 → ∃ o x, (evaluate someRoot (yawPaddle.withSectors ns) [⟨6, 30 / π, 0⟩] false).2 = .ok o ∧ o.conds = [x] := fun ns hns => by
    obtain ⟨o, x, h1, h2, -⟩ := evaluate_total someRoot_onlyValueError (yawPaddle.withSectors ns) ⟨6, 30 / π, 0⟩ false
      (by simp [Rotor.withSectors, yawPaddle, paddleRotor, annulusRotor, demoRotor])
      (by simp [Rotor.withSectors, yawPaddle, paddleRotor, annulusRotor, demoRotor]) hO (by simpa [Rotor.withSectors] using hns)
    exact ⟨o, x, h1, h2⟩
  obtain ⟨o1, x1, -⟩ := tot 1 one_ne_zero
  have : Nonempty (EvalOut ℝ) := ⟨o1⟩
  have : Nonempty (CondOut ℝ) := ⟨x1⟩
  choose! o x ho hx using tot
  obtain ⟨N, T, k, kT, -⟩ := evaluate_sectors_attached (bq := someRoot) someRoot_exact (R := yawPaddle) (c := ⟨6, 30 / π, 0⟩) rfl hO
    (by norm_num [yawPaddle, paddleRotor, annulusRotor, demoRotor]) (fun _ _ => .inr fun _ _ _ => rfl) (fun _ _ => continuous_const)
    (fun i hi az => by
      have h1 : (i : ℝ) ≤ 1 := by
        have : i < 2 := hi
        exact_mod_cast Nat.lt_succ_iff.mp this
      have h0 : (0 : ℝ) ≤ i := by positivity
      have c2 := neg_one_le_cos az
      have c1 := cos_le_one az
      simp [relHeight, yawPaddle, paddleRotor, annulusRotor, demoRotor]
      rw [show 1 + (6 + (i : ℝ)) * cos az / 90 = (90 + (6 + (i : ℝ)) * cos az) / 90 by ring]
      refine div_pos ?_ (by norm_num)
      nlinarith)
    (fun az _ => by
      obtain ⟨L, hL, -⟩ := distributedAeroLoads_finds someRoot someRoot_onlyValueError yawPaddle 6 (30 / π) 0 az
        (by simp [yawPaddle, paddleRotor, annulusRotor, demoRotor]) (by simp [yawPaddle, paddleRotor, annulusRotor, demoRotor])
        (by simp [num_real])
      exact ⟨L, hL, fun i s hs => yawPaddle_station (Prod.ext rfl hL) hs⟩)
    (fun _ => [⟨6, 30 / π, 0⟩]) (fun _ => false) o (fun _ => 0) x
    ((eventually_ne_atTop 0).mono fun ns hns => ⟨ho ns hns, rfl, by rw [hx ns hns]; rfl⟩)
  refine ⟨N, T, k, ?_, fun ε hε => ?_⟩
  · rw [yawPaddle_wind _ (by norm_num), yawPaddle_wind _ (by norm_num), zero_mul, cos_zero, show (180 : ℝ) * (π / 180) = π by ring, cos_pi]
    norm_num
  · obtain ⟨n0, hn0⟩ := Metric.tendsto_atTop.mp kT ε hε
    refine ⟨n0 + 1, fun ns hns => ⟨o ns, x ns, ho ns (by omega), hx ns (by omega), ?_⟩⟩
    exact hn0 ns (by omega)

theorem yawPaddle_loads {az : ℝ} {R' : Rotor ℝ} {L : LoadsOut ℝ} (h : distributedAeroLoads someRoot yawPaddle 6 (30 / π) 0 az = (R', .ok L)) {i : ℕ}
    {s : Station ℝ} (hs : L.stations[i]? = some s) :
    let Vx := 6 * cos (π / 6)
    let Vy := 6 + i - 3 * cos (az * (π / 180))
    s.loads.Np = yawPaddle.rho / 2 * (Vx * √(Vy ^ 2 + Vx ^ 2)) ∧ s.loads.Tp = -(yawPaddle.rho / 2 * (Vy * √(Vy ^ 2 + Vx ^ 2))) := by
  intro Vx Vy
  have hpi := pi_gt_three
  have hO : 30 / π ≠ 0 := by positivity
  have hi : i < 2 := (loads_station h hs).1
  obtain ⟨hx0, hy0, -⟩ := (yawPaddle_inflow (az * (π / 180)) (i := i)).resolve_right (by omega)
  change 0 < Vx at hx0
  change 0 < Vy at hy0
  obtain ⟨A, w, hphi, hl, reg⟩ := yawPaddle_station h hs
  obtain ⟨z, -, -⟩ := exact_interval someRoot_exact h hO hs w
  have z' := z
  rw [yawPaddle_residual az hi hphi.1] at z
  change sin s.phi - Vx / Vy * cos s.phi = 0 at z
  have hcp : 0 < cos s.phi := cos_pos_of_mem_Ioo ⟨by linarith [hphi.1], hphi.2⟩
  have hV : rotorWind yawPaddle 6 (30 / π) (az * (π / 180)) i = (Vx, Vy) := yawPaddle_wind _ hi
  obtain ⟨f1, f2, f3, -⟩ := station_facts (R := yawPaddle) rfl (.inr fun _ _ _ => rfl) h hO hs hV hx0.ne' hy0.ne'
  have hp : stationPolar yawPaddle 6 (30 / π) 0 az i s.phi = (0, 1) := rfl
  rw [hp] at f1 f2 f3
  simp only at f1 f2 f3
  rw [stationResidual_const rfl (.inr fun _ _ _ => rfl), hV, hp] at z'
  unfold RegularAngle at reg
  rw [hp] at reg
  obtain ⟨-, t⟩ := section_speed (cl := fun _ => 0) (cd := fun _ => 1) A.blades A.hub A.inner A.outer A.chord hx0 hy0 A.flow hphi z' reg le_rfl
  have s0 : sectionSwirl yawPaddle.opts yawPaddle.B (yawPaddle.r i) (yawPaddle.chord i) yawPaddle.Rhub yawPaddle.Rtip (fun _ => 0) (fun _ => 1) s.phi = 0 := by
    simp [sectionSwirl, yawPaddle, paddleRotor]
  rw [s0, sub_zero, div_one] at t
  rw [← f3] at t
  obtain ⟨a1, a2, a3, -⟩ := distributedAeroLoads_forces _ _ _ _ _ _ _ L h i s hs
  have hch : yawPaddle.chord i = 1 := rfl
  rw [hch] at a2 a3
  have hsin : sin s.phi = Vx / Vy * cos s.phi := by linarith
  have hq : √(Vy ^ 2 + Vx ^ 2) * cos s.phi = Vy := by
    have h1 := sin_sq_add_cos_sq s.phi
    rw [hsin] at h1
    have h2 : (Vy ^ 2 + Vx ^ 2) * cos s.phi ^ 2 = Vy ^ 2 := by
      field_simp at h1
      nlinarith
    rw [← Real.sqrt_sq hcp.le, ← Real.sqrt_mul (by positivity), h2, Real.sqrt_sq hy0.le]
  have hWc : s.loads.W ^ 2 * cos s.phi = Vy * √(Vy ^ 2 + Vx ^ 2) := by
    refine mul_right_cancel₀ hcp.ne' ?_
    rw [mul_assoc, mul_assoc, hq, ← pow_two, t]
    ring
  constructor
  · rw [a2, a1, f1, f2, hsin]
    have : yawPaddle.rho * s.loads.W ^ 2 / 2 * 1 * (0 * cos s.phi + 1 * (Vx / Vy * cos s.phi))
        = yawPaddle.rho / 2 * (Vx * (s.loads.W ^ 2 * cos s.phi / Vy)) := by ring
    rw [hWc] at this
    refine Eq.trans ?_ (this.trans ?_)
    · ring
    · field_simp
  · rw [a3, a1, f1, f2]
    have : yawPaddle.rho * s.loads.W ^ 2 / 2 * 1 * (0 * sin s.phi - 1 * cos s.phi) = -(yawPaddle.rho / 2 * (s.loads.W ^ 2 * cos s.phi)) := by ring
    rw [hWc] at this
    refine Eq.trans ?_ (this.trans ?_)
    · ring
    · ring

/-- The hypotheses of `evaluate_sectors_rate` are met by the same rotor: its thrust with `ns` sectors is within a constant over `ns` of the mean. -/
example : ∃ N T C, LoadsAround someRoot yawPaddle ⟨6, 30 / π, 0⟩ N T ∧ N 0 0 ≠ N 180 0 ∧
    ∀ ns > 0, ∃ o x, (evaluate someRoot (yawPaddle.withSectors ns) [⟨6, 30 / π, 0⟩] false).2 = .ok o ∧ o.conds = [x] ∧
      |x.acc.T.val - (revolutionMeans yawPaddle N T).T| ≤ C / ns := by
  have hpi := pi_gt_three
  have hO : 30 / π ≠ 0 := by positivity
  set Vx := 6 * cos (π / 6) with hVx
  have hx0 : 0 < Vx := ((yawPaddle_inflow 0 (i := 0)).resolve_right (by omega)).1
  have smooth : ∀ i : ℕ, ContDiff ℝ 1 fun az : ℝ => 6 + (i : ℝ) - 3 * cos (az * (π / 180)) := fun i =>
    contDiff_const.sub (contDiff_const.mul ((contDiff_id.mul contDiff_const).cos))
  have sroot : ∀ i : ℕ, ContDiff ℝ 1 fun az : ℝ => √((6 + (i : ℝ) - 3 * cos (az * (π / 180))) ^ 2 + Vx ^ 2) := fun i =>
    (((smooth i).pow 2).add contDiff_const).sqrt fun az => by positivity
  have hL : LoadsAround someRoot yawPaddle ⟨6, 30 / π, 0⟩
      (fun az i => yawPaddle.rho / 2 * (Vx * √((6 + (i : ℝ) - 3 * cos (az * (π / 180))) ^ 2 + Vx ^ 2)))
      (fun az i => -(yawPaddle.rho / 2 * ((6 + (i : ℝ) - 3 * cos (az * (π / 180))) * √((6 + (i : ℝ) - 3 * cos (az * (π / 180))) ^ 2 + Vx ^ 2)))) :=
    fun az _ L hL i s hs => yawPaddle_loads (Prod.ext rfl hL) hs
  obtain ⟨C, hC⟩ := evaluate_sectors_rate hL (fun i _ => .of_contDiff (contDiff_const.mul (contDiff_const.mul (sroot i))))
    (fun i _ => .of_contDiff (contDiff_const.mul ((smooth i).mul (sroot i))).neg)
  refine ⟨_, _, C, hL, ?_, fun ns hns => ?_⟩
  · have hr : yawPaddle.rho / 2 ≠ 0 := by norm_num [yawPaddle, paddleRotor, annulusRotor, demoRotor]
    simp only [zero_mul, cos_zero, show (180 : ℝ) * (π / 180) = π by ring, cos_pi]
    intro h
    have := mul_left_cancel₀ hx0.ne' (mul_left_cancel₀ hr h)
    rw [Real.sqrt_inj (by positivity) (by positivity)] at this
    norm_num at this
  · obtain ⟨o, x, h1, h2, -⟩ := evaluate_total someRoot_onlyValueError (yawPaddle.withSectors ns) ⟨6, 30 / π, 0⟩ false
      (by simp [Rotor.withSectors, yawPaddle, paddleRotor, annulusRotor, demoRotor])
      (by simp [Rotor.withSectors, yawPaddle, paddleRotor, annulusRotor, demoRotor]) hO (by simpa [Rotor.withSectors] using hns.ne')
    exact ⟨o, x, h1, h2, (hC ns hns _ _ _ 0 x h1 rfl (by rw [h2]; rfl)).1⟩

end Verif
