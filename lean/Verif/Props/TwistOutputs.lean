import Verif.Props.ComponentBlade
import Verif.XR

/-!
# The spanwise outputs of the twist component (C91)
-/

namespace Verif

section
variable {α : Type} [Num α]

/-- The outputs of `TwistIn.compute` that `TwistIn.compute_inv` does not list, for any scalars. -/
theorem TwistIn.compute_span {fit : SplineFit α} {bq : RootFinder α} {pchip : Pchip α} {x : TwistIn α} {o : TwistOut α}
    (h : x.compute fit bq pchip = .ok o) : ∃ afs R L e,
      x.blade.af.airfoils fit (if 1 < x.blade.af.nTab then x.blade.af.nTab / 2 else 0) x.blade.n = .ok afs ∧
      (x.blade.args (fun _ => 0) afs false).build = .ok R ∧
      (distributedAeroLoads bq { R with theta := o.theta } x.Uhub x.Omega x.pitch 0).2 = .ok L ∧
      (evaluate bq (distributedAeroLoads bq { R with theta := o.theta } x.Uhub x.Omega x.pitch 0).1
        [⟨x.Uhub, x.Omega, x.pitch⟩] true).2 = .ok e ∧ (o.velocities = fun i => nanToNum (e.W i)) ∧
      o.a = stationArr L.stations SecLoads.a ∧ o.ap = stationArr L.stations SecLoads.ap ∧
      (o.Pz_b = fun i => 0 * o.Px_b i) ∧
      (o.Pz_af = fun i => ((DirVec.mk' (o.Px_b i) (o.Py_b i) 0).bladeToAirfoil (o.theta i * Num.nat 180 / Num.pi)).z) ∧
      npInterps (arr x.nOpt x.s_opt_theta) (arr x.blade.n x.s) (arr x.blade.n o.cl) = .ok o.cl_n_opt ∧
      npInterps (arr x.nOpt x.s_opt_theta) (arr x.blade.n x.s) (arr x.blade.n o.cd) = .ok o.cd_n_opt ∧
      npInterps (arr x.nOpt x.s_opt_theta) (arr x.blade.n x.s) (arr x.blade.n o.LiftF) = .ok o.L_n_opt ∧
      npInterps (arr x.nOpt x.s_opt_theta) (arr x.blade.n x.s) (arr x.blade.n o.DragF) = .ok o.D_n_opt := by
  unfold TwistIn.compute at h
  obtain ⟨afs, h1, h⟩ := bind_inv h
  obtain ⟨R, h2, h⟩ := bind_inv h
  obtain ⟨theta, h3, h⟩ := bind_inv h
  obtain ⟨L, h4, h⟩ := bind_inv h
  obtain ⟨e, h5, h⟩ := bind_inv h
  obtain ⟨c, h6, h⟩ := bind_inv h
  split at h
  · cases h
  · rename_i C hC
    obtain ⟨v1, g1, h⟩ := bind_inv h
    obtain ⟨v2, g2, h⟩ := bind_inv h
    obtain ⟨v3, g3, h⟩ := bind_inv h
    obtain ⟨v4, g4, h⟩ := bind_inv h
    cases h
    exact ⟨afs, R, L, e, h1, h2, h4, h5, rfl, rfl, rfl, rfl, rfl, g1, g2, g3, g4⟩

/-- **C91** The local velocities returned contain no NaN, and agree with those of the analysis wherever these are not NaN (for any
scalars, in particular for reals with NaN). -/
theorem twist_velocities_nan (h0 : Num.isNaN (0 : α) = false) (fit : SplineFit α) (bq : RootFinder α) (pchip : Pchip α) (x : TwistIn α)
    (o : TwistOut α) (h : x.compute fit bq pchip = .ok o) : ∃ (R : Rotor α) (e : EvalOut α),
      (evaluate bq R [⟨x.Uhub, x.Omega, x.pitch⟩] true).2 = .ok e ∧ ∀ i, Num.isNaN (o.velocities i) = false ∧
        (Num.isNaN (e.W i) = false → o.velocities i = e.W i) ∧ (Num.isNaN (e.W i) = true → o.velocities i = 0) := by
  obtain ⟨afs, R, L, e, -, -, -, he, hv, -⟩ := TwistIn.compute_span h
  refine ⟨_, e, he, fun i => ?_⟩
  rw [hv]
  simp only [nanToNum]
  cases hn : Num.isNaN (e.W i) <;> simp [hn, h0]

end

/-- The relative speed `evaluate` returns for one condition is that at its last azimuth. -/
theorem evaluate_W {bq : RootFinder ℝ} {R : Rotor ℝ} {c : Cond ℝ} {co : Bool} {o : EvalOut ℝ}
    (h : (evaluate bq R [c] co).2 = .ok o) (l : ℕ) (hl : R.nSector = l + 1) : ∃ (L : LoadsOut ℝ),
      (distributedAeroLoads bq R c.Uinf c.Omega c.pitch (l * (360 / R.nSector))).2 = .ok L ∧
      o.W = stationArr L.stations SecLoads.W := by
  obtain ⟨a, h1, h2, -⟩ := (evaluate_single bq R c co o).mp h
  obtain ⟨L, hL, -, -, -, -, -, -, -, hW⟩ := condAcc_sum h1
  refine ⟨L l, hL l (by omega), ?_⟩
  rw [hW l hl] at h2
  exact (Option.some.inj h2).symm

/-- `ys` is the quantity `f`, given at the points `x 0 < ... < x (n - 1)`, resampled linearly at the points `at 0, ..., at (m - 1)`. -/
def Resampled (n : ℕ) (x f : ℕ → ℝ) (m : ℕ) (pts : ℕ → ℝ) (ys : List ℝ) : Prop :=
  ys.length = m ∧ ∀ j < m, (∃ i < n, x i ≤ pts j) → (∃ i < n, pts j ≤ x i) →
    ∃ y, ys[j]? = some y ∧ OnPolyline ((List.range n).map fun i => (x i, f i)) (pts j) y

theorem resampled_of (n : ℕ) (x f : ℕ → ℝ) (m : ℕ) (pts : ℕ → ℝ) (ys : List ℝ) (hn : 0 < n)
    (hx : ∀ i j, i < j → j < n → x i < x j) (h : npInterps (arr m pts) (arr n x) (arr n f) = .ok ys) : Resampled n x f m pts ys := by
  have hne : arr n x ≠ [] := by
    intro h0
    have := congrArg List.length h0
    simp only [arr_length, List.length_nil] at this
    omega
  have hinc : (arr n x).Pairwise (· < ·) := by
    rw [List.pairwise_iff_getElem]
    intro i j hi hj hij
    simp only [arr_length] at hi hj
    simp only [arr, List.getElem_map, List.getElem_range]
    exact hx i j hij hj
  rw [npInterps_ok _ _ _ (by simp [arr_length]) hne] at h
  obtain rfl := (Except.ok.inj h).symm
  refine ⟨by simp [arr_length], fun j hj h1 h2 => ?_⟩
  refine ⟨interpVal (arr n x) (arr n f) (pts j), ?_, ?_⟩
  · rw [List.getElem?_map, arr_getElem?]
    · rfl
    · exact hj
  · have := interpVal_onPolyline (arr n x) (arr n f) (by simp [arr_length]) hinc (pts j)
      (by obtain ⟨i, hi, hle⟩ := h1; exact ⟨x i, List.mem_map.mpr ⟨i, List.mem_range.mpr hi, rfl⟩, hle⟩)
      (by obtain ⟨i, hi, hle⟩ := h2; exact ⟨x i, List.mem_map.mpr ⟨i, List.mem_range.mpr hi, rfl⟩, hle⟩)
    have hz : (arr n x).zip (arr n f) = (List.range n).map fun i => (x i, f i) := by
      simp only [arr]
      rw [List.zip_map']
    rwa [hz] at this

/-- The span coordinate: 0 at the first station, 1 at the last. -/
theorem span_strict (x : TwistIn ℝ) (hr : ∀ i j, i < j → j < x.blade.n → x.blade.r i < x.blade.r j) :
    ∀ i j, i < j → j < x.blade.n → x.s i < x.s j := by
  intro i j hij hj
  have h0 : x.blade.r 0 < x.blade.r (x.blade.n - 1) := hr 0 _ (by omega) (by omega)
  exact div_lt_div_of_pos_right (sub_lt_sub_right (hr i j hij hj) _) (sub_pos.mpr h0)

/-- **C91** The spanwise outputs.  Induction factors are those of the analysis at azimuth zero; the force in the airfoil frame is the
force in the blade frame turned by the returned twist; the third components vanish; the local velocities are those at the last of the
equally spaced azimuth angles; lift and drag, as coefficients and forces, are resampled linearly over the span. -/
theorem twist_span_outputs (fit : SplineFit ℝ) (bq : RootFinder ℝ) (pchip : Pchip ℝ) (x : TwistIn ℝ) (o : TwistOut ℝ)
    (hn : 0 < x.blade.n) (hr : ∀ i j, i < j → j < x.blade.n → x.blade.r i < x.blade.r j)
    (hRe : 0 < x.blade.af.nRe) (h : x.compute fit bq pchip = .ok o) :
    ∃ R L L', Analyses fit x.blade (x.blade.af.nTab / 2) (fun _ => 0) x.blade.precurve x.blade.precurveTip x.blade.presweep
        x.blade.presweepTip false R ∧
      (distributedAeroLoads bq { R with theta := o.theta } x.Uhub x.Omega x.pitch 0).2 = .ok L ∧
      (distributedAeroLoads bq { R with theta := o.theta } x.Uhub x.Omega x.pitch ((R.nSector - 1) * (360 / R.nSector))).2 = .ok L' ∧
      (∀ i < x.blade.n, ∃ st st', L.stations[i]? = some st ∧ L'.stations[i]? = some st' ∧ o.a i = st.loads.a ∧ o.ap i = st.loads.ap ∧
        o.velocities i = st'.loads.W ∧ o.Pz_b i = 0 ∧ o.Pz_af i = 0 ∧
        o.Px_af i = Real.cos (o.theta i) * o.Px_b i - Real.sin (o.theta i) * o.Py_b i ∧
        o.Py_af i = Real.sin (o.theta i) * o.Px_b i + Real.cos (o.theta i) * o.Py_b i) ∧
      Resampled x.blade.n x.s o.cl x.nOpt x.s_opt_theta o.cl_n_opt ∧ Resampled x.blade.n x.s o.cd x.nOpt x.s_opt_theta o.cd_n_opt ∧
      Resampled x.blade.n x.s o.LiftF x.nOpt x.s_opt_theta o.L_n_opt ∧
      Resampled x.blade.n x.s o.DragF x.nOpt x.s_opt_theta o.D_n_opt := by
  obtain ⟨afs, R, L, e, ha, hR, hL, he, hv, h1, h2, h3, h4, h5, h6, h7, h8⟩ := TwistIn.compute_span h
  obtain ⟨_, _, _, _, _, _, _, _, _, _, _, _, _, _, _, _, _, _, _, _, _, _, _, _, hx, hy, _⟩ := TwistIn.compute_inv h
  have htab : (if 1 < x.blade.af.nTab then x.blade.af.nTab / 2 else 0) = x.blade.af.nTab / 2 := by
    split_ifs <;> omega
  rw [htab] at ha
  have hA := analyses_of fit x.blade hRe _ _ false afs ha R hR
  have hS := sameDesign_loads bq { R with theta := o.theta } x.Uhub x.Omega x.pitch 0
  obtain ⟨l, hl⟩ : ∃ l, R.nSector = l + 1 := by
    have hs := hA.sectors
    by_cases hz : x.blade.tilt = 0 ∧ x.blade.yaw = 0 ∧ x.blade.shearExp = 0
    · exact ⟨0, hs.1 hz⟩
    · exact ⟨max 4 x.blade.nSector - 1, by rw [hs.2 hz]; omega⟩
  rw [hS.evaluate] at he
  obtain ⟨L', hL', hW⟩ := evaluate_W he l hl
  have hl' : ((R.nSector : ℝ) - 1) = l := by rw [hl]; push_cast; ring
  refine ⟨R, L, L', hA, hL, by rw [hl']; exact hL', fun i hi => ?_, resampled_of _ _ _ _ _ _ hn (span_strict x hr) h5,
    resampled_of _ _ _ _ _ _ hn (span_strict x hr) h6, resampled_of _ _ _ _ _ _ hn (span_strict x hr) h7,
    resampled_of _ _ _ _ _ _ hn (span_strict x hr) h8⟩
  have hnn : ({ R with theta := o.theta } : Rotor ℝ).n = x.blade.n := (build_data hR).1
  obtain ⟨st, hst, -⟩ := (solveStations_ok (distributedAeroLoads_stations
    (show distributedAeroLoads bq { R with theta := o.theta } x.Uhub x.Omega x.pitch 0 = (_, .ok L) from Prod.ext rfl hL))).2 i
    (by rw [hnn]; exact hi)
  obtain ⟨st', hst', -⟩ := (solveStations_ok (distributedAeroLoads_stations
    (show distributedAeroLoads bq { R with theta := o.theta } x.Uhub x.Omega x.pitch _ = (_, .ok L') from Prod.ext rfl hL'))).2 i
    (by rw [hnn]; exact hi)
  have hdeg : o.theta i * (180 : ℕ) / Real.pi * -1 * (Real.pi / 180) = -o.theta i := by
    have := Real.pi_ne_zero
    push_cast
    field_simp
  refine ⟨st, st', hst, hst', by rw [h1]; simp [stationArr, hst], by rw [h2]; simp [stationArr, hst], ?_, by rw [h3]; simp, ?_, ?_, ?_⟩
  · rw [hv, hW]; simp [nanToNum, stationArr, hst', Num.isNaN]
  · rw [h4]
    simp only [DirVec.bladeToAirfoil, rotXY, DirVec.mk', rotateAboutZ, if_true, real_deg2rad, num_real, hdeg]
  · rw [hx]
    simp only [DirVec.bladeToAirfoil, rotXY, DirVec.mk', rotateAboutZ, if_true, real_deg2rad, num_real, hdeg, Real.cos_neg, Real.sin_neg]
    ring
  · rw [hy]
    simp only [DirVec.bladeToAirfoil, rotXY, DirVec.mk', rotateAboutZ, if_true, real_deg2rad, num_real, hdeg, Real.cos_neg, Real.sin_neg]
    ring

/-- The hypotheses are met by the sample blade. -/
example (pchip : Pchip ℝ) : ∃ o, inverseTwist.compute cornerFit plainBq pchip = .ok o ∧ o.Pz_b 1 = 0 ∧
    Resampled 3 inverseTwist.s o.cl 2 (fun i => i) o.cl_n_opt := by
  obtain ⟨o, h⟩ := twist_component_total _ _ plainBq_onlyValueError _ _ (inverseTwist_ready pchip)
  obtain ⟨R, L, L', -, -, -, h1, h2, -⟩ := twist_span_outputs cornerFit plainBq pchip inverseTwist o
    (by norm_num [inverseTwist, plainBlade])
    (by
      intro i j hij _
      simp only [inverseTwist, plainBlade]
      have : (i : ℝ) < j := by exact_mod_cast hij
      linarith)
    (by norm_num [inverseTwist, slopeTables, plainTables]) h
  obtain ⟨_, _, _, _, _, _, _, h3, _⟩ := h1 1 (by norm_num [inverseTwist, plainBlade])
  exact ⟨o, h, h3, h2⟩

/-- Zero is not NaN among the reals with NaN. -/
example : Num.isNaN (0 : XR) = false := rfl

end Verif
