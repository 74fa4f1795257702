import Verif.Lemmas.Component
import Verif.Props.AfSearch
import Verif.Props.Unsteady
import Verif.Props.Constructor
import Verif.Props.Loads
import Verif.Props.Rotor
import Verif.Lemmas.PlainBlade
import Mathlib.Analysis.Real.Pi.Bounds

/-!
# The twist component (C71, C72, C74, C79, C80)
-/

namespace Verif

/-! ## Specification -/

/-- `new` is the twist `old` with everything inboard of the outermost station above 20 degrees set to 20 degrees. -/
structure Capped (n : ℕ) (old new : ℕ → ℝ) : Prop where
  le : ∀ i < n, new i ≤ Real.pi / 9
  inboard : ∀ i j, i ≤ j → j < n → Real.pi / 9 < old j → new i = Real.pi / 9
  outboard : ∀ i < n, (∀ j, i ≤ j → j < n → old j ≤ Real.pi / 9) → new i = old i

/-- An interpolation between the first and last abscissa stays below every bound of the data. -/
def ShapePreserving (pchip : Pchip ℝ) : Prop := ∀ xs ys f, pchip xs ys = .ok f → ∀ c, (∀ y ∈ ys, y ≤ c) →
  ∀ lo hi, xs.head? = some lo → xs.getLast? = some hi → ∀ q, lo ≤ q → q ≤ hi → f q ≤ c

/-! ## Helpers -/

theorem real_twistLimit : (twistLimit : ℝ) = Real.pi / 9 := by
  simp only [twistLimit, num_real]
  push_cast
  ring

/-- What a successful `compute` has done. -/
theorem TwistIn.compute_inv {fit : SplineFit ℝ} {bq : RootFinder ℝ} {pchip : Pchip ℝ} {x : TwistIn ℝ} {o : TwistOut ℝ}
    (h : x.compute fit bq pchip = .ok o) : ∃ afs R L e c C,
      x.blade.af.airfoils fit (if 1 < x.blade.af.nTab then x.blade.af.nTab / 2 else 0) x.blade.n = .ok afs ∧
      (x.blade.args (fun _ => 0) afs false).build = .ok R ∧ x.twist bq pchip afs R = .ok o.theta ∧
      (distributedAeroLoads bq { R with theta := o.theta } x.Uhub x.Omega x.pitch 0).2 = .ok L ∧
      (evaluate bq (distributedAeroLoads bq { R with theta := o.theta } x.Uhub x.Omega x.pitch 0).1
        [⟨x.Uhub, x.Omega, x.pitch⟩] true).2 = .ok e ∧ pyFirst e.conds = .ok c ∧ c.C = some C ∧
      o.CP = C.CP.val ∧ o.CM = C.CMb.val ∧ o.P = 0 ∧ o.T = 0 ∧ o.Q = 0 ∧ o.M = 0 ∧
      o.alpha = stationArr L.stations SecLoads.alpha ∧ o.cl = stationArr L.stations SecLoads.cl ∧
      o.cd = stationArr L.stations SecLoads.cd ∧ o.Px_b = stationArr L.stations SecLoads.Np ∧
      (o.Py_b = fun i => -stationArr L.stations SecLoads.Tp i) ∧
      (∀ i, o.Px_af i = ((DirVec.mk' (o.Px_b i) (o.Py_b i) 0).bladeToAirfoil (o.theta i * (180 : ℕ) / Real.pi)).x) ∧
      (∀ i, o.Py_af i = ((DirVec.mk' (o.Px_b i) (o.Py_b i) 0).bladeToAirfoil (o.theta i * (180 : ℕ) / Real.pi)).y) ∧
      (∀ i, o.LiftF i = ((DirVec.mk' (o.Px_b i) (o.Py_b i) 0).bladeToAirfoil
        (o.theta i * (180 : ℕ) / Real.pi + o.alpha i + x.pitch)).x) ∧
      (∀ i, o.DragF i = ((DirVec.mk' (o.Px_b i) (o.Py_b i) 0).bladeToAirfoil
        (o.theta i * (180 : ℕ) / Real.pi + o.alpha i + x.pitch)).y) := by
  unfold TwistIn.compute at h
  obtain ⟨afs, h1, h⟩ := bind_inv h
  obtain ⟨R, h2, h⟩ := bind_inv h
  obtain ⟨theta, h3, h⟩ := bind_inv h
  obtain ⟨L, h4, h⟩ := bind_inv h
  obtain ⟨e, h5, h⟩ := bind_inv h
  obtain ⟨c, h6, h⟩ := bind_inv h
  split at h
  · cases h
  · rename_i C hC
    obtain ⟨v1, g1, h⟩ := bind_inv h
    obtain ⟨v2, g2, h⟩ := bind_inv h
    obtain ⟨v3, g3, h⟩ := bind_inv h
    obtain ⟨v4, g4, h⟩ := bind_inv h
    cases h
    exact ⟨afs, R, L, e, c, C, h1, h2, h3, h4, h5, h6, hC, rfl, rfl, rfl, rfl, rfl, rfl, rfl, rfl, rfl, rfl, rfl,
      fun _ => rfl, fun _ => rfl, fun _ => rfl, fun _ => rfl⟩

/-! ## C71 -/

/-- **C71** the loop that limits the twist: no station above 20 degrees, exactly 20 degrees up to the outermost station above,
unchanged outboard of it. -/
theorem capTwist_capped (theta : ℕ → ℝ) : ∀ n : ℕ, Capped n theta (capTwist theta n)
  | 0 => ⟨fun i hi => absurd hi (by omega), fun i j _ hj => absurd hj (by omega), fun i hi => absurd hi (by omega)⟩
  | k + 1 => by
    have ih := capTwist_capped theta k
    have hrest : ∀ m, ∀ i, m ≤ i → capTwist theta m i = theta i := by
      intro m
      induction m with
      | zero => intro i _; rfl
      | succ m ihm =>
        intro i hi
        simp only [capTwist]
        split_ifs
        · simp only
          rw [if_neg (by omega)]
        · exact ihm i (by omega)
    simp only [capTwist, real_twistLimit]
    by_cases h : Real.pi / 9 < theta k
    · rw [if_pos h]
      refine ⟨fun i hi => by simp only [if_pos hi]; exact le_rfl, fun i j hij hj _ => by simp only [if_pos (show i < k + 1 by omega)], ?_⟩
      intro i hi hall
      exact absurd (hall k (by omega) (by omega)) (not_le.mpr h)
    · rw [if_neg h]
      push Not at h
      refine ⟨fun i hi => ?_, fun i j hij hj hgt => ?_, fun i hi hall => ?_⟩
      · rcases Nat.lt_succ_iff_lt_or_eq.mp hi with h' | rfl
        · exact ih.le i h'
        · rw [hrest i i le_rfl]; exact h
      · rcases Nat.lt_succ_iff_lt_or_eq.mp hj with h' | rfl
        · exact ih.inboard i j hij h' hgt
        · exact absurd h (not_le.mpr hgt)
      · rcases Nat.lt_succ_iff_lt_or_eq.mp hi with h' | rfl
        · exact ih.outboard i h' fun j h1 h2 => hall j h1 (by omega)
        · exact hrest i i le_rfl

/-- A twist that exceeds the limit at an inner station only: the two inner stations are set to 20 degrees. -/
example : capTwist (fun i => if i = 1 then 1 else (0 : ℝ)) 3 0 = Real.pi / 9 ∧
    capTwist (fun i => if i = 1 then 1 else (0 : ℝ)) 3 2 = 0 := by
  have h := capTwist_capped (fun i => if i = 1 then 1 else (0 : ℝ)) 3
  have hpi := Real.pi_pos
  have hpi4 := Real.pi_le_four
  constructor
  · exact h.inboard 0 1 (by omega) (by omega) (by simp only [if_true]; linarith)
  · rw [h.outboard 2 (by omega)]
    · simp
    · intro j h1 h2
      rw [if_neg (by omega)]
      positivity

/-- The twist the inverse analysis of the component finds, before it is limited. -/
theorem TwistIn.inverseTheta_inv {bq : RootFinder ℝ} {x : TwistIn ℝ} {afs : List (CCAf ℝ)} {R : Rotor ℝ} {theta : ℕ → ℝ}
    (h : x.inverseTheta bq afs R = .ok theta) : ∃ sec idx e, x.sections afs x.blade.n = .ok sec ∧
      firstThin x.rthick 0 x.blade.n = .ok idx ∧
      let at_ := fun (f : ℝ × ℝ × ℝ → ℝ) i => ((sec[i]?).map f).getD 0
      let R1 := { R with inv := some ⟨fun i => if i < idx then at_ Prod.fst idx else at_ Prod.fst i,
        at_ fun p => p.2.1, at_ fun p => p.2.2⟩ }
      (evaluate bq R1 [⟨x.Uhub, x.Omega, x.pitch⟩] false).2 = .ok e ∧
      theta = capTwist (evaluate bq R1 [⟨x.Uhub, x.Omega, x.pitch⟩] false).1.theta x.blade.n := by
  unfold TwistIn.inverseTheta at h
  obtain ⟨sec, h1, h⟩ := bind_inv h
  obtain ⟨idx, h2, h⟩ := bind_inv h
  obtain ⟨e, h3, h⟩ := bind_inv h
  cases h
  exact ⟨sec, idx, e, h1, h2, h3, rfl⟩

/-- Inverse mode: the limited twist of an inverse analysis, possibly smoothed. -/
theorem TwistIn.twist_inv {bq : RootFinder ℝ} {pchip : Pchip ℝ} {x : TwistIn ℝ} {afs : List (CCAf ℝ)} {R : Rotor ℝ}
    {th : ℕ → ℝ} (hinv : x.inverse = true) (ht : x.twist bq pchip afs R = .ok th) : ∃ theta,
      x.optimize = false ∧ x.inverseTheta bq afs R = .ok theta ∧
      if x.inn_af then x.smooth pchip theta = .ok th else th = theta := by
  unfold TwistIn.twist at ht
  rw [if_pos hinv] at ht
  by_cases ho : x.optimize = true
  · rw [if_pos ho] at ht
    cases ht
  · rw [if_neg ho] at ht
    obtain ⟨theta, h1, h2⟩ := bind_inv ht
    refine ⟨theta, by simpa using ho, h1, ?_⟩
    split_ifs at h2 ⊢
    · exact h2
    · cases h2
      rfl

/-- **C71** in inverse mode the component returns the twist found by an inverse analysis of its rotor at the requested tip-speed
ratio, limited to 20 degrees as described. -/
theorem twist_component_cap (fit : SplineFit ℝ) (bq : RootFinder ℝ) (pchip : Pchip ℝ) (x : TwistIn ℝ) (o : TwistOut ℝ)
    (hinv : x.inverse = true) (hinn : x.inn_af = false) (h : x.compute fit bq pchip = .ok o) :
    ∃ afs R d e, (x.blade.args (fun _ => 0) afs false).build = .ok R ∧
      (evaluate bq { R with inv := some d } [⟨x.Uhub, x.Omega, x.pitch⟩] false).2 = .ok e ∧
      Capped x.blade.n (evaluate bq { R with inv := some d } [⟨x.Uhub, x.Omega, x.pitch⟩] false).1.theta o.theta := by
  obtain ⟨afs, R, L, e, c, C, -, hR, ht, -⟩ := TwistIn.compute_inv h
  obtain ⟨theta, -, h1, h2⟩ := TwistIn.twist_inv hinv ht
  rw [hinn, if_neg (by simp)] at h2
  obtain ⟨sec, idx, e', -, -, h3, h4⟩ := TwistIn.inverseTheta_inv h1
  exact ⟨afs, R, _, e', hR, h3, by rw [h2, h4]; exact capTwist_capped _ _⟩

theorem arr_head? {β : Type} (n : ℕ) (hn : 0 < n) (f : ℕ → β) : (arr n f).head? = some (f 0) := by
  rw [List.head?_eq_getElem?, arr_getElem? _ _ _ hn]

theorem arr_getLast? {β : Type} (n : ℕ) (hn : 0 < n) (f : ℕ → β) : (arr n f).getLast? = some (f (n - 1)) := by
  rw [List.getLast?_eq_getElem?, arr_length, arr_getElem? _ _ _ (by omega)]

/-- **C71** with the smoothing of inn_af designs the twist still does not exceed 20 degrees, for every interpolation that keeps
the bounds of its data and control points that span the blade. -/
theorem twist_component_bound (fit : SplineFit ℝ) (bq : RootFinder ℝ) (pchip : Pchip ℝ) (hp : ShapePreserving pchip)
    (x : TwistIn ℝ) (o : TwistOut ℝ) (hinv : x.inverse = true) (hno : 0 < x.nOpt)
    (hin : ∀ j < x.nOpt, x.s 0 ≤ x.s_opt_theta j ∧ x.s_opt_theta j ≤ x.s (x.blade.n - 1))
    (hspan : ∀ i < x.blade.n, x.s_opt_theta 0 ≤ x.s i ∧ x.s i ≤ x.s_opt_theta (x.nOpt - 1))
    (h : x.compute fit bq pchip = .ok o) : ∀ i < x.blade.n, o.theta i ≤ Real.pi / 9 := by
  intro i hi
  obtain ⟨afs, R, L, e, c, C, -, hR, ht, -⟩ := TwistIn.compute_inv h
  obtain ⟨theta, -, h1, h2⟩ := TwistIn.twist_inv hinv ht
  obtain ⟨sec, idx, e', -, -, h3, h4⟩ := TwistIn.inverseTheta_inv h1
  have hcap : ∀ j < x.blade.n, theta j ≤ Real.pi / 9 := by
    rw [h4]
    exact (capTwist_capped _ _).le
  split_ifs at h2
  · unfold TwistIn.smooth at h2
    obtain ⟨f, hf, h2⟩ := bind_inv h2
    obtain ⟨g, hg, h2⟩ := bind_inv h2
    have hn : 0 < x.blade.n := by omega
    rw [← Except.ok.inj h2]
    refine hp _ _ g hg _ ?_ _ _ (arr_head? _ hno _) (arr_getLast? _ hno _) _ (hspan i hi).1 (hspan i hi).2
    intro y hy
    obtain ⟨j, hj, rfl⟩ := List.mem_map.mp hy
    rw [List.mem_range] at hj
    refine hp _ _ f hf _ ?_ _ _ (arr_head? _ hn _) (arr_getLast? _ hn _) _ (hin j hj).1 (hin j hj).2
    intro y hy
    obtain ⟨k, hk, rfl⟩ := List.mem_map.mp hy
    exact hcap k (List.mem_range.mp hk)
  · rw [h2]
    exact hcap i hi

/-! ## C72 -/

/-- Rotating a normal and a tangential load back by the inflow angle (in degrees). -/
theorem rotate_back (q cl cd phi deg : ℝ) (h : deg * (Real.pi / 180) = phi) :
    ((DirVec.mk' (q * (cl * Real.cos phi + cd * Real.sin phi)) (-(q * (cl * Real.sin phi - cd * Real.cos phi)))
      0).bladeToAirfoil deg).x = q * cl ∧
    ((DirVec.mk' (q * (cl * Real.cos phi + cd * Real.sin phi)) (-(q * (cl * Real.sin phi - cd * Real.cos phi)))
      0).bladeToAirfoil deg).y = q * cd := by
  have e : deg * -1 * (Real.pi / 180) = -phi := by rw [← h]; ring
  have hsc := Real.sin_sq_add_cos_sq phi
  simp only [DirVec.bladeToAirfoil, rotXY, DirVec.mk', rotateAboutZ, if_true, real_deg2rad, e, num_real, Real.cos_neg,
    Real.sin_neg]
  constructor
  · linear_combination q * cl * hsc
  · linear_combination q * cd * hsc

/-- **C72** the lift and drag the component returns are `½ρW²c` times the lift and drag coefficient it returns, at every
station, with the local speed `W` of the analysis at azimuth zero. -/
theorem twist_lift_drag (fit : SplineFit ℝ) (bq : RootFinder ℝ) (pchip : Pchip ℝ) (x : TwistIn ℝ) (o : TwistOut ℝ)
    (h : x.compute fit bq pchip = .ok o) : ∃ R R' L, distributedAeroLoads bq R x.Uhub x.Omega x.pitch 0 = (R', .ok L) ∧
      R.theta = o.theta ∧ R.inv = none ∧ ∀ i < x.blade.n, ∃ st, L.stations[i]? = some st ∧
        o.cl i = st.loads.cl ∧ o.cd i = st.loads.cd ∧
        o.LiftF i = x.blade.rho * st.loads.W ^ 2 / 2 * x.blade.chord i * o.cl i ∧
        o.DragF i = x.blade.rho * st.loads.W ^ 2 / 2 * x.blade.chord i * o.cd i := by
  obtain ⟨afs, R, L, e, c, C, -, hR, ht, hL, -, -, -, -, -, -, -, -, -, ha, hcl, hcd, hx, hy, -, -, hlift, hdrag⟩ := TwistIn.compute_inv h
  obtain ⟨-, -, -, -, hchord, -, -, -, -, hi0⟩ := build_fields hR
  obtain ⟨hn, -, hrho, -⟩ := build_data hR
  have hcall : distributedAeroLoads bq { R with theta := o.theta } x.Uhub x.Omega x.pitch 0 = (_, .ok L) := Prod.ext rfl hL
  refine ⟨_, _, L, hcall, rfl, hi0, fun i hi => ?_⟩
  obtain ⟨h1, h2⟩ := solveStations_ok (distributedAeroLoads_stations hcall)
  obtain ⟨st, hst, hsol⟩ := h2 i (by simp only [hn]; exact hi)
  have ecl : o.cl i = st.loads.cl := by rw [hcl]; simp [stationArr, hst]
  have ecd : o.cd i = st.loads.cd := by rw [hcd]; simp [stationArr, hst]
  refine ⟨st, hst, ecl, ecd, ?_⟩
  obtain ⟨hq, hNp, hTp, -⟩ := distributedAeroLoads_forces _ _ _ _ _ _ _ _ hcall i st hst
  have ea : o.alpha i = st.loads.alpha := by rw [ha]; simp [stationArr, hst]
  have ex : o.Px_b i = st.loads.Np := by rw [hx]; simp [stationArr, hst]
  have ey : o.Py_b i = -st.loads.Tp := by rw [hy]; simp [stationArr, hst]
  have hpi := Real.pi_ne_zero
  rw [hlift, hdrag, ecl, ecd, ex, ey, ea]
  obtain ⟨d, -, hth, hsec, -⟩ := solveStation_real hsol
  rcases secLoads_ok hsec with ⟨hvx, hvy, -⟩ | ⟨-, hz⟩
  · obtain ⟨halpha, -⟩ := distributedAeroLoads_coefficients _ _ _ _ _ _ _ _ hcall i st hst
      ⟨by simpa [stationSec, real_deg2rad] using hvx, by simpa [stationSec, real_deg2rad] using hvy⟩
    have hth' : st.theta = o.theta i := by
      rw [hth]
      simp only [stationTheta, hi0]
    have hdeg : (o.theta i * (180 : ℕ) / Real.pi + st.loads.alpha + x.pitch) * (Real.pi / 180) = st.phi := by
      rw [← hth']
      field_simp at halpha ⊢
      push_cast
      linarith
    obtain ⟨r1, r2⟩ := rotate_back (st.loads.q * x.blade.chord i) st.loads.cl st.loads.cd st.phi _ hdeg
    have hc : R.chord i = x.blade.chord i := by rw [hchord]; rfl
    rw [hNp, hTp]
    simp only at hq
    simp only [hc]
    rw [hrho] at hq
    rw [hq] at r1 r2 ⊢
    exact ⟨r1, r2⟩
  · rw [hz]
    simp [DirVec.bladeToAirfoil, rotXY, DirVec.mk', rotateAboutZ]

/-! ## C74 -/

/-- The angular speed (rad/s) the component runs the rotor at. -/
noncomputable def TwistIn.speed (x : TwistIn ℝ) : ℝ := x.Omega * (Real.pi / 30)

/-- **C74** (partial) the rotor runs at the requested tip-speed ratio when the outermost station lies at the tip radius.  The
general claim is false: see `tip_speed_false`. -/
theorem tip_speed_partial (x : TwistIn ℝ) (hU : x.Uhub ≠ 0) (hR : x.blade.Rtip ≠ 0)
    (htip : x.blade.r (x.blade.n - 1) = x.blade.Rtip) : x.speed * x.blade.Rtip / x.Uhub = x.tsr := by
  have hpi := Real.pi_ne_zero
  simp only [TwistIn.speed, TwistIn.Omega, htip, num_real]
  push_cast
  field_simp

/-- **C74** (partial) the speed ratio that is always attained is that of the outermost station. -/
theorem station_speed_partial (x : TwistIn ℝ) (hU : x.Uhub ≠ 0) (hr : x.blade.r (x.blade.n - 1) ≠ 0) :
    x.speed * x.blade.r (x.blade.n - 1) / x.Uhub = x.tsr := by
  have hpi := Real.pi_ne_zero
  simp only [TwistIn.speed, TwistIn.Omega, num_real]
  push_cast
  field_simp

/-- **C74** (false in general) with the outermost station inside the tip radius the rotor always runs faster than requested. -/
theorem tip_speed_false (x : TwistIn ℝ) (hU : 0 < x.Uhub) (ht : 0 < x.tsr) (hr : 0 < x.blade.r (x.blade.n - 1))
    (hin : x.blade.r (x.blade.n - 1) < x.blade.Rtip) : x.tsr < x.speed * x.blade.Rtip / x.Uhub := by
  have h := station_speed_partial x hU.ne' hr.ne'
  have hs : 0 < x.speed := by
    by_contra hneg
    push Not at hneg
    have : x.speed * x.blade.r (x.blade.n - 1) / x.Uhub ≤ 0 :=
      div_nonpos_of_nonpos_of_nonneg (mul_nonpos_of_nonpos_of_nonneg hneg hr.le) hU.le
    linarith
  calc x.tsr = x.speed * x.blade.r (x.blade.n - 1) / x.Uhub := h.symm
    _ < x.speed * x.blade.Rtip / x.Uhub := by gcongr

/-- **C74** (partial) the Reynolds number passed to the airfoils is `30/π` times that of the circumferential speed: the rotor
speed enters in revolutions per minute. -/
theorem twist_reynolds_partial (x : TwistIn ℝ) (i : ℕ) :
    x.Re i = 30 / Real.pi * (x.blade.rho * (x.speed * x.blade.r i) * x.blade.chord i / x.blade.mu) := by
  have hpi := Real.pi_ne_zero
  simp only [TwistIn.Re, TwistIn.speed]
  field_simp

/-- **C74** (false in general) it is more than nine times the Reynolds number of the circumferential speed, and exceeds that of
the local speed unless the wind is nine times faster than the section. -/
theorem twist_reynolds_false (x : TwistIn ℝ) (i : ℕ) (hO : 0 < x.speed) (hr : 0 < x.blade.r i) (hc : 0 < x.blade.chord i)
    (hrho : 0 < x.blade.rho) (hmu : 0 < x.blade.mu) :
    9 * (x.blade.rho * (x.speed * x.blade.r i) * x.blade.chord i / x.blade.mu) < x.Re i ∧
    ∀ U : ℝ, |U| ≤ 8 * (x.speed * x.blade.r i) →
      x.blade.rho * Real.sqrt (U ^ 2 + (x.speed * x.blade.r i) ^ 2) * x.blade.chord i / x.blade.mu < x.Re i := by
  have hpi : 9 < 30 / Real.pi := by
    rw [lt_div_iff₀ Real.pi_pos]
    have := Real.pi_lt_d2
    linarith
  have hv : 0 < x.speed * x.blade.r i := mul_pos hO hr
  have h1 : 9 * (x.blade.rho * (x.speed * x.blade.r i) * x.blade.chord i / x.blade.mu) < x.Re i := by
    rw [twist_reynolds_partial]
    have : 0 < x.blade.rho * (x.speed * x.blade.r i) * x.blade.chord i / x.blade.mu := by positivity
    exact mul_lt_mul_of_pos_right hpi this
  refine ⟨h1, fun U hU => lt_of_le_of_lt ?_ h1⟩
  have h2 : Real.sqrt (U ^ 2 + (x.speed * x.blade.r i) ^ 2) ≤ 9 * (x.speed * x.blade.r i) := by
    rw [Real.sqrt_le_left (by positivity)]
    have := sq_le_sq' (by linarith [neg_abs_le U]) (le_trans (le_abs_self U) hU)
    nlinarith
  calc x.blade.rho * Real.sqrt (U ^ 2 + (x.speed * x.blade.r i) ^ 2) * x.blade.chord i / x.blade.mu
      ≤ x.blade.rho * (9 * (x.speed * x.blade.r i)) * x.blade.chord i / x.blade.mu := by gcongr
    _ = 9 * (x.blade.rho * (x.speed * x.blade.r i) * x.blade.chord i / x.blade.mu) := by ring

/-- The Reynolds number is the one the airfoil is evaluated at. -/
theorem twist_sections (x : TwistIn ℝ) (afs : List (CCAf ℝ)) : ∀ (n : ℕ) (sec : List (ℝ × ℝ × ℝ)), x.sections afs n = .ok sec →
    sec.length = n ∧ ∀ i < n, ∃ a, x.sectionAlpha i = .ok a ∧
      sec[i]? = some (a, ((afList afs i).evaluate a (x.Re i)).1, ((afList afs i).evaluate a (x.Re i)).2)
  | 0, sec, h => by
    cases h
    exact ⟨rfl, fun i hi => absurd hi (by omega)⟩
  | k + 1, sec, h => by
    unfold TwistIn.sections at h
    obtain ⟨done, h1, h⟩ := bind_inv h
    obtain ⟨a, h2, h⟩ := bind_inv h
    cases h
    obtain ⟨hl, hs⟩ := twist_sections x afs k done h1
    refine ⟨by simp [hl], fun i hi => ?_⟩
    rcases Nat.lt_succ_iff_lt_or_eq.mp hi with h' | rfl
    · obtain ⟨a', g1, g2⟩ := hs i h'
      exact ⟨a', g1, by rw [List.getElem?_append_left (by omega)]; exact g2⟩
    · exact ⟨a, h2, by rw [List.getElem?_append_right (by omega)]; simp [hl]⟩

/-! ## C79 -/

/-- Inputs for which no step of the component has a reason to fail. -/
structure TwistReady (fit : SplineFit ℝ) (pchip : Pchip ℝ) (x : TwistIn ℝ) : Prop where
  fit : ∀ a b c i j s, ∃ S, fit a b c i j s = .ok S
  span : 0 < x.blade.n
  angles : 2 ≤ x.blade.af.nAoa
  tables : 0 < x.blade.af.nTab
  options : ¬ (x.inverse = true ∧ x.optimize = true)
  thin : x.inverse = true → ∃ i < x.blade.n, x.rthick i < 95
  aoa : x.inverse = true → ∀ i < x.blade.n, 1 / 10000 ≤ |x.aoa_op i - Real.pi|
  smooth : x.inverse = true → x.inn_af = true → ∀ a b, ∃ f, pchip a b = .ok f
  rotating : x.Omega ≠ 0

theorem AfTables.airfoil_ok {fit : SplineFit ℝ} (hfit : ∀ a b c i j s, ∃ S, fit a b c i j s = .ok S) (T : AfTables ℝ)
    (ha : 2 ≤ T.nAoa) (tab : ℕ) (ht : tab < T.nTab) (i : ℕ) : ∃ a, T.airfoil fit tab i = .ok a := by
  unfold AfTables.airfoil CCAf.build
  rw [if_neg (by omega)]
  simp only [List.length_map, arr_length, if_neg (show ¬ T.nAoa < 2 by omega), bind, Except.bind, pure, Except.pure]
  obtain ⟨S1, h1⟩ := hfit ((arr T.nAoa T.aoa).map deg2rad) (if T.nRe < 2 then [Num.nat 10, Num.nat (10 ^ 15)] else arr T.nRe T.Re)
    (if T.nRe < 2 then matTwice (T.slice T.cl tab i) else T.slice T.cl tab i) (min (T.nAoa - 1) 3)
    (min ((if T.nRe < 2 then [Num.nat 10, Num.nat (10 ^ 15)] else arr T.nRe T.Re).length - 1) 3) (Num.nat 1 / Num.nat 10)
  obtain ⟨S2, h2⟩ := hfit ((arr T.nAoa T.aoa).map deg2rad) (if T.nRe < 2 then [Num.nat 10, Num.nat (10 ^ 15)] else arr T.nRe T.Re)
    (if T.nRe < 2 then matTwice (T.slice T.cd tab i) else T.slice T.cd tab i) (min (T.nAoa - 1) 3)
    (min ((if T.nRe < 2 then [Num.nat 10, Num.nat (10 ^ 15)] else arr T.nRe T.Re).length - 1) 3) (Num.nat 1 / Num.nat 1000)
  obtain ⟨S3, h3⟩ := hfit ((arr T.nAoa T.aoa).map deg2rad) (if T.nRe < 2 then [Num.nat 10, Num.nat (10 ^ 15)] else arr T.nRe T.Re)
    (if T.nRe < 2 then matTwice (T.slice T.cm tab i) else T.slice T.cm tab i) (min (T.nAoa - 1) 3)
    (min ((if T.nRe < 2 then [Num.nat 10, Num.nat (10 ^ 15)] else arr T.nRe T.Re).length - 1) 3) (Num.nat 1 / Num.nat 10000)
  rw [h1, h2, h3]
  split_ifs <;> exact ⟨_, rfl⟩

theorem AfTables.airfoils_ok {fit : SplineFit ℝ} (hfit : ∀ a b c i j s, ∃ S, fit a b c i j s = .ok S) (T : AfTables ℝ)
    (ha : 2 ≤ T.nAoa) (tab : ℕ) (ht : tab < T.nTab) : ∀ n, ∃ l, T.airfoils fit tab n = .ok l
  | 0 => ⟨[], rfl⟩
  | k + 1 => by
    obtain ⟨l, hl⟩ := AfTables.airfoils_ok hfit T ha tab ht k
    obtain ⟨a, hA⟩ := T.airfoil_ok hfit ha tab ht k
    exact ⟨l ++ [a], by simp only [AfTables.airfoils, hl, hA, bind, Except.bind, pure, Except.pure]⟩

/-- A condition with a rotating rotor can always be evaluated without derivatives. -/
theorem evaluate_total {bq : RootFinder ℝ} (hbq : OnlyValueError bq) (R : Rotor ℝ) (c : Cond ℝ) (co : Bool)
    (hiter : R.iterRe ≠ 0) (hd : R.derivatives = false) (hO : c.Omega ≠ 0) (hns : R.nSector ≠ 0) :
    ∃ o x, (evaluate bq R [c] co).2 = .ok o ∧ o.conds = [x] ∧ (x.C.isSome = co) := by
  obtain ⟨acc, h⟩ := (condAcc_ok_iff bq R c).mpr fun k _ => by
    obtain ⟨L, hL, -⟩ := distributedAeroLoads_finds bq hbq R c.Uinf c.Omega c.pitch (k * (360 / R.nSector)) hiter hd
      (by simpa [num_real] using hO)
    exact ⟨L, hL⟩
  obtain ⟨W, hW⟩ := Option.isSome_iff_exists.mp ((condAcc_W h).mpr hns)
  refine ⟨⟨_, W⟩, _, (evaluate_single _ _ _ _ _).mpr ⟨acc, h, hW, rfl⟩, rfl, ?_⟩
  cases co <;> rfl

theorem firstThin_ok (rthick : ℕ → ℝ) : ∀ k i, (∃ j, i ≤ j ∧ j < i + k ∧ rthick j < 95) →
    ∃ idx, firstThin rthick i k = .ok idx ∧ i ≤ idx ∧ idx < i + k ∧ rthick idx < 95 ∧ ∀ j, i ≤ j → j < idx → 95 ≤ rthick j
  | 0, i, ⟨j, h1, h2, _⟩ => absurd h2 (by omega)
  | k + 1, i, ⟨j, h1, h2, h3⟩ => by
    unfold firstThin
    by_cases h : rthick i < 95
    · rw [if_pos (by simpa [num_real] using h)]
      exact ⟨i, rfl, le_rfl, by omega, h, fun j h1 h2 => absurd h2 (by omega)⟩
    · rw [if_neg (by simpa [num_real] using h)]
      have hne : j ≠ i := by rintro rfl; exact h h3
      obtain ⟨idx, g1, g2, g3, g4, g5⟩ := firstThin_ok rthick k (i + 1) ⟨j, by omega, by omega, h3⟩
      refine ⟨idx, g1, by omega, by omega, g4, fun j hj1 hj2 => ?_⟩
      rcases Nat.eq_or_lt_of_le hj1 with rfl | h'
      · exact not_lt.mp h
      · exact g5 j h' hj2

theorem sectionAlpha_given (x : TwistIn ℝ) (i : ℕ) (h : 1 / 10000 ≤ |x.aoa_op i - Real.pi|) :
    x.sectionAlpha i = .ok (x.aoa_op i) := by
  unfold TwistIn.sectionAlpha
  rw [if_neg]
  simp only [num_real]
  push_cast
  exact not_lt.mpr h

theorem sections_ok (x : TwistIn ℝ) (afs : List (CCAf ℝ)) : ∀ n, (∀ i < n, 1 / 10000 ≤ |x.aoa_op i - Real.pi|) →
    ∃ sec, x.sections afs n = .ok sec
  | 0, _ => ⟨[], rfl⟩
  | k + 1, h => by
    obtain ⟨sec, hs⟩ := sections_ok x afs k fun i hi => h i (by omega)
    unfold TwistIn.sections
    rw [hs, sectionAlpha_given x k (h k (by omega))]
    exact ⟨_, rfl⟩

theorem npInterps_arr (xs : List ℝ) (n : ℕ) (hn : 0 < n) (f g : ℕ → ℝ) : ∃ l, npInterps xs (arr n f) (arr n g) = .ok l := by
  unfold npInterps
  rw [if_pos (by simp [arr_length])]
  obtain ⟨m, rfl⟩ : ∃ m, n = m + 1 := ⟨n - 1, by omega⟩
  rw [arr_cons, arr_cons, List.zip_cons_cons]
  exact ⟨_, rfl⟩

/-- **C79** the twist component returns a result for every rotating rotor with complete tables, in direct and in inverse mode,
whatever the airfoils return and whether or not the inflow angle can be bracketed. -/
theorem twist_component_total (fit : SplineFit ℝ) (bq : RootFinder ℝ) (hbq : OnlyValueError bq) (pchip : Pchip ℝ)
    (x : TwistIn ℝ) (hx : TwistReady fit pchip x) : ∃ o, x.compute fit bq pchip = .ok o := by
  have htab : (if 1 < x.blade.af.nTab then x.blade.af.nTab / 2 else 0) < x.blade.af.nTab := by
    have := hx.tables
    split_ifs <;> omega
  obtain ⟨afs, hafs⟩ := x.blade.af.airfoils_ok hx.fit hx.angles _ htab x.blade.n
  have hn : (x.blade.args (fun _ => 0) afs false).n ≠ 0 := by have := hx.span; simp only [BladeIn.args]; omega
  obtain ⟨R, hR⟩ := build_total _ hn
  obtain ⟨hsec, -⟩ := build_fields hR
  obtain ⟨dn, daf, -, -, -, dit, dder, -⟩ := build_data hR
  have hns : R.nSector ≠ 0 := by
    rw [hsec]
    split_ifs <;> omega
  have hit : R.iterRe ≠ 0 := by rw [dit]; simp [BladeIn.args]
  have hder : R.derivatives = false := dder
  have htw : ∃ th, x.twist bq pchip afs R = .ok th := by
    unfold TwistIn.twist
    by_cases hinv : x.inverse = true
    · have hopt : ¬ x.optimize = true := fun h => hx.options ⟨hinv, h⟩
      rw [if_pos hinv, if_neg hopt]
      obtain ⟨sec, h1⟩ := sections_ok x afs x.blade.n (hx.aoa hinv)
      obtain ⟨j, hj, hj'⟩ := hx.thin hinv
      obtain ⟨idx, h2, -⟩ := firstThin_ok x.rthick x.blade.n 0 ⟨j, by omega, by omega, hj'⟩
      have h3 : ∃ th, x.inverseTheta bq afs R = .ok th := by
        unfold TwistIn.inverseTheta
        rw [h1, h2]
        simp only [bind, Except.bind]
        obtain ⟨e, y, he, -⟩ := evaluate_total hbq { R with inv := some ⟨fun i => if i < idx then
          ((sec[idx]?).map Prod.fst).getD 0 else ((sec[i]?).map Prod.fst).getD 0,
          fun i => ((sec[i]?).map fun p => p.2.1).getD 0, fun i => ((sec[i]?).map fun p => p.2.2).getD 0⟩ }
          ⟨x.Uhub, x.Omega, x.pitch⟩ false hit hder hx.rotating hns
        rw [he]
        exact ⟨_, rfl⟩
      obtain ⟨th, h3⟩ := h3
      rw [h3]
      simp only [bind, Except.bind]
      split_ifs with hinn
      · unfold TwistIn.smooth
        obtain ⟨f, hf⟩ := hx.smooth hinv hinn (arr x.blade.n x.s) (arr x.blade.n th)
        obtain ⟨g, hg⟩ := hx.smooth hinv hinn (arr x.nOpt x.s_opt_theta) (arr x.nOpt fun j => f (x.s_opt_theta j))
        rw [hf]
        simp only [bind, Except.bind]
        rw [hg]
        exact ⟨_, rfl⟩
      · exact ⟨_, rfl⟩
    · rw [if_neg hinv]
      exact ⟨_, rfl⟩
  obtain ⟨th, hth⟩ := htw
  obtain ⟨L, hL, -⟩ := distributedAeroLoads_finds bq hbq { R with theta := th } x.Uhub x.Omega x.pitch 0 hit hder
    (by simpa [num_real] using hx.rotating)
  have hsame := sameDesign_loads bq { R with theta := th } x.Uhub x.Omega x.pitch 0
  obtain ⟨p, sv, t, hS, -⟩ := hsame
  obtain ⟨e, y, he, hy, hyC⟩ := evaluate_total hbq (distributedAeroLoads bq { R with theta := th } x.Uhub x.Omega x.pitch 0).1
    ⟨x.Uhub, x.Omega, x.pitch⟩ true (by rw [hS]; exact hit) (by rw [hS]; exact hder) hx.rotating (by rw [hS]; exact hns)
  obtain ⟨C, hC⟩ := Option.isSome_iff_exists.mp hyC
  unfold TwistIn.compute
  simp only [bind, Except.bind, hafs, hR, hth, hL, he, hy, pyFirst, hC]
  obtain ⟨l1, e1⟩ := npInterps_arr (arr x.nOpt x.s_opt_theta) x.blade.n hx.span x.s (stationArr L.stations SecLoads.cl)
  obtain ⟨l2, e2⟩ := npInterps_arr (arr x.nOpt x.s_opt_theta) x.blade.n hx.span x.s (stationArr L.stations SecLoads.cd)
  have e3 := fun f => npInterps_arr (arr x.nOpt x.s_opt_theta) x.blade.n hx.span x.s f
  rw [e1, e2]
  simp only
  generalize hF : (fun i => ((DirVec.mk' (stationArr L.stations SecLoads.Np i) (-stationArr L.stations SecLoads.Tp i) 0).bladeToAirfoil
    (th i * Num.nat 180 / Num.pi + stationArr L.stations SecLoads.alpha i + x.pitch)).x) = F
  generalize hG : (fun i => ((DirVec.mk' (stationArr L.stations SecLoads.Np i) (-stationArr L.stations SecLoads.Tp i) 0).bladeToAirfoil
    (th i * Num.nat 180 / Num.pi + stationArr L.stations SecLoads.alpha i + x.pitch)).y) = G
  obtain ⟨l3, e4⟩ := e3 F
  obtain ⟨l4, e5⟩ := e3 G
  rw [e4, e5]
  exact ⟨_, rfl⟩

/-! ## C80 -/

/-- With one sector `evaluate` leaves the object as the call at azimuth zero does. -/
theorem evaluate_one_sector {bq : RootFinder ℝ} {R : Rotor ℝ} {c : Cond ℝ} {co : Bool} (hns : R.nSector = 1)
    {o : EvalOut ℝ} (h : (evaluate bq R [c] co).2 = .ok o) :
    (evaluate bq R [c] co).1 = (distributedAeroLoads bq R c.Uinf c.Omega c.pitch 0).1 ∧
    ∃ L, (distributedAeroLoads bq R c.Uinf c.Omega c.pitch 0).2 = .ok L := by
  have haz : azimuthAngles (α := ℝ) 1 = [0] := by simp [azimuthAngles, arr, num_real]
  have h0 : rad2deg (0 : ℝ) = 0 := by simp [rad2deg, num_real]
  unfold evaluate at h ⊢
  simp only [condLoop, hns, haz, sectorLoop, h0] at h ⊢
  rcases hd : distributedAeroLoads bq R c.Uinf c.Omega c.pitch 0 with ⟨R', e | L⟩
  · simp only [hd] at h
    exact absurd h (by simp)
  · simp only
    refine ⟨?_, L, rfl⟩
    split <;> rfl

theorem AfTables.airfoils_get {fit : SplineFit ℝ} {T : AfTables ℝ} {tab : ℕ} : ∀ {n : ℕ} {l : List (CCAf ℝ)},
    T.airfoils fit tab n = .ok l → l.length = n ∧ ∀ i < n, ∃ a, T.airfoil fit tab i = .ok a ∧ l[i]? = some a
  | 0, l, h => by
    cases h
    exact ⟨rfl, fun i hi => absurd hi (by omega)⟩
  | k + 1, l, h => by
    unfold AfTables.airfoils at h
    obtain ⟨done, h1, h⟩ := bind_inv h
    obtain ⟨a, h2, h⟩ := bind_inv h
    cases h
    obtain ⟨hl, hs⟩ := AfTables.airfoils_get h1
    refine ⟨by simp [hl], fun i hi => ?_⟩
    rcases Nat.lt_succ_iff_lt_or_eq.mp hi with h' | rfl
    · obtain ⟨a', g1, g2⟩ := hs i h'
      exact ⟨a', g1, by rw [List.getElem?_append_left (by omega)]; exact g2⟩
    · exact ⟨a, h2, by rw [List.getElem?_append_right (by omega)]; simp [hl]⟩

/-- The design data of the inverse analysis: own coefficients, but the angle of attack of the first thin station for everything
inboard of it. -/
theorem TwistIn.inverse_found {fit : SplineFit ℝ} {bq : RootFinder ℝ} {pchip : Pchip ℝ} {x : TwistIn ℝ} {o : TwistOut ℝ}
    (hinv : x.inverse = true) (hinn : x.inn_af = false) (htilt : x.blade.tilt = 0) (hyaw : x.blade.yaw = 0)
    (hshear : x.blade.shearExp = 0) (h : x.compute fit bq pchip = .ok o)
    (haoa : ∀ j < x.blade.n, 1 / 10000 ≤ |x.aoa_op j - Real.pi|) :
    ∃ afs R d idx found, (x.blade.args (fun _ => 0) afs false).build = .ok R ∧ idx < x.blade.n ∧ x.rthick idx < 95 ∧
      (∀ j < idx, 95 ≤ x.rthick j) ∧ Capped x.blade.n found o.theta ∧ ∀ i < x.blade.n, ∃ af phi w,
        x.blade.af.airfoil fit (if 1 < x.blade.af.nTab then x.blade.af.nTab / 2 else 0) i = .ok af ∧
        R.af i = af.toI ∧ d.alpha i = x.aoa_op (max i idx) ∧
        (d.cl i, d.cd i) = af.toI.evaluate (x.aoa_op i) (x.Re i) ∧
        stationPhi bq { R with inv := some d } (x.pitch * (Real.pi / 180)) x.Omega (rotorWind R x.Uhub x.Omega 0) i = .ok (phi, w) ∧
        found i = phi - d.alpha i - x.pitch * (Real.pi / 180) := by
  obtain ⟨afs, R, L, e, c, C, hafs, hR, ht, -⟩ := TwistIn.compute_inv h
  obtain ⟨theta, -, h1, h2⟩ := TwistIn.twist_inv hinv ht
  rw [hinn, if_neg (by simp)] at h2
  obtain ⟨sec, idx, e', hsec, hidx, h3, h4⟩ := TwistIn.inverseTheta_inv h1
  obtain ⟨hns, -⟩ := build_fields hR
  obtain ⟨hn, hRaf, -⟩ := build_data hR
  have hthin : ∃ j, 0 ≤ j ∧ j < 0 + x.blade.n ∧ x.rthick j < 95 := by
    by_contra hno
    push Not at hno
    have : ∀ k i, i + k = x.blade.n → firstThin x.rthick i k = .error .indexError := by
      intro k
      induction k with
      | zero => intro i _; rfl
      | succ k ih =>
        intro i hik
        unfold firstThin
        rw [if_neg, ih (i + 1) (by omega)]
        simp only [num_real]
        exact not_lt.mpr (hno i (by omega) (by omega))
    rw [this x.blade.n 0 (by omega)] at hidx
    cases hidx
  obtain ⟨idx', g1, -, g3, g4, g5⟩ := firstThin_ok x.rthick x.blade.n 0 hthin
  obtain rfl : idx' = idx := Except.ok.inj (g1.symm.trans hidx)
  obtain ⟨hsl, hss⟩ := twist_sections x afs x.blade.n sec hsec
  have hsec' : ∀ j < x.blade.n, sec[j]? = some (x.aoa_op j, ((afList afs j).evaluate (x.aoa_op j) (x.Re j)).1,
      ((afList afs j).evaluate (x.aoa_op j) (x.Re j)).2) := by
    intro j hj
    obtain ⟨a, e1, e2⟩ := hss j hj
    rw [sectionAlpha_given x j (haoa j hj)] at e1
    cases e1
    exact e2
  let d : InvData ℝ := ⟨fun i => if i < idx' then (((sec[idx']?).map Prod.fst).getD 0 : ℝ) else
    ((sec[i]?).map Prod.fst).getD 0, fun i => ((sec[i]?).map fun p => p.2.1).getD 0,
    fun i => ((sec[i]?).map fun p => p.2.2).getD 0⟩
  set R1 : Rotor ℝ := { R with inv := some d } with hR1
  have hns1 : R1.nSector = 1 := by
    rw [hR1]
    simp only
    rw [hns]
    simp [BladeIn.args, htilt, hyaw, hshear, real_deg2rad, num_real]
  have h3' : (evaluate bq R1 [⟨x.Uhub, x.Omega, x.pitch⟩] false).2 = .ok e' := h3
  obtain ⟨hev, L1, hL1⟩ := evaluate_one_sector hns1 h3'
  have h4' : o.theta = capTwist (distributedAeroLoads bq R1 x.Uhub x.Omega x.pitch 0).1.theta x.blade.n := by
    rw [h2, h4, ← hev]
  have hc := capTwist_capped (distributedAeroLoads bq R1 x.Uhub x.Omega x.pitch 0).1.theta x.blade.n
  rw [← h4'] at hc
  have hcall : distributedAeroLoads bq R1 x.Uhub x.Omega x.pitch 0 = (_, .ok L1) := Prod.ext rfl hL1
  obtain ⟨l1, l2⟩ := solveStations_ok (distributedAeroLoads_stations hcall)
  have hz : deg2rad (0 : ℝ) = 0 := by simp [real_deg2rad]
  have hv : rotorWind R1 x.Uhub x.Omega 0 = rotorWind R x.Uhub x.Omega 0 := rfl
  refine ⟨afs, R, d, idx', _, hR, by omega, g4, fun j hj => g5 j (by omega) hj, hc, fun i hi => ?_⟩
  obtain ⟨af, haf, hget⟩ := (AfTables.airfoils_get hafs).2 i hi
  obtain ⟨st, hst, hsol⟩ := l2 i (by rw [hR1]; simp only [hn]; exact hi)
  obtain ⟨dd, p1, -⟩ := solveStation_real hsol
  obtain ⟨q1, -⟩ := inverse_alpha bq R1 _ _ (by rw [hR1]) _ _ _ _ L1 hcall i st hst
  have hafi : afList afs i = af.toI := by simp [afList, hget]
  rw [hz, hv, real_deg2rad] at p1
  refine ⟨af, st.phi, st.warned, haf, by rw [hRaf]; exact hafi, ?_, ?_, p1, ?_⟩
  · simp only [d]
    split_ifs with hlt
    · rw [hsec' idx' (by omega), max_eq_right (by omega)]; rfl
    · rw [hsec' i hi, max_eq_left (by omega)]; rfl
  · simp only [d, hsec' i hi, Option.map_some, Option.getD_some, hafi]
  · linarith

/-- A station below the limit keeps the twist that was found. -/
theorem Capped.eq_of_lt {n : ℕ} {old new : ℕ → ℝ} (hc : Capped n old new) {i : ℕ} (hi : i < n) (h : new i < Real.pi / 9) :
    new i = old i := by
  refine hc.outboard i hi fun j hij hj => ?_
  by_contra hgt
  push Not at hgt
  rw [hc.inboard i j hij hj hgt] at h
  exact lt_irrefl _ h

/-- **C80** (partial: axisymmetric inflow, airfoils without Reynolds dependence, stations from the first thin one outwards that
are not limited) the twist returned in inverse mode makes the requested angle of attack a solution of the equations of the direct
analysis: at the inflow angle found by the inverse analysis the angle of attack is the requested one and the two residuals
agree.  Inboard of the first thin station this is false: see `twist_root_false`. -/
theorem twist_inverse_partial (fit : SplineFit ℝ) (bq : RootFinder ℝ) (pchip : Pchip ℝ) (x : TwistIn ℝ) (o : TwistOut ℝ)
    (hinv : x.inverse = true) (hinn : x.inn_af = false) (htilt : x.blade.tilt = 0) (hyaw : x.blade.yaw = 0)
    (hshear : x.blade.shearExp = 0) (h : x.compute fit bq pchip = .ok o) (i : ℕ) (hi : i < x.blade.n)
    (hcap : o.theta i < Real.pi / 9) (haoa : ∀ j < x.blade.n, 1 / 10000 ≤ |x.aoa_op j - Real.pi|)
    (hthin : ∃ j ≤ i, x.rthick j < 95)
    (hRe : ∀ af, x.blade.af.airfoil fit (if 1 < x.blade.af.nTab then x.blade.af.nTab / 2 else 0) i = .ok af → af.toI.ReIndependent) :
    ∃ afs R d phi w, (x.blade.args (fun _ => 0) afs false).build = .ok R ∧
      stationPhi bq { R with inv := some d } (x.pitch * (Real.pi / 180)) x.Omega (rotorWind R x.Uhub x.Omega 0) i = .ok (phi, w) ∧
      phi - (o.theta i + x.pitch * (Real.pi / 180)) = x.aoa_op i ∧
      stationResidual { R with theta := o.theta } x.Uhub x.Omega x.pitch 0 i phi
        = stationResidual { R with inv := some d } x.Uhub x.Omega x.pitch 0 i phi := by
  obtain ⟨afs, R, d, idx, found, hR, -, -, hidx, hcapped, hst⟩ := TwistIn.inverse_found hinv hinn htilt hyaw hshear h haoa
  obtain ⟨af, phi, w, haf, hRaf, ha, hc, hphi, hth⟩ := hst i hi
  rw [← hcapped.eq_of_lt hi hcap] at hth
  have hle : idx ≤ i := by
    by_contra hlt
    obtain ⟨j, hj, hj'⟩ := hthin
    exact absurd hj' (not_lt.mpr (hidx j (by omega)))
  rw [max_eq_left hle] at ha
  rw [ha] at hth
  obtain ⟨-, -, -, -, -, hit, -⟩ := build_data hR
  obtain ⟨-, -, -, -, -, -, -, -, -, hi0⟩ := build_fields hR
  have hal : phi - (o.theta i + x.pitch * (Real.pi / 180)) = x.aoa_op i := by rw [hth]; ring
  refine ⟨afs, R, d, phi, w, hR, hphi, hal, ?_⟩
  have hit1 : R.iterRe - 1 = 0 := by rw [hit]; rfl
  have hcl : (d.cl i) = (af.toI.evaluate (x.aoa_op i) (x.Re i)).1 := congrArg Prod.fst hc
  have hcd : (d.cd i) = (af.toI.evaluate (x.aoa_op i) (x.Re i)).2 := congrArg Prod.snd hc
  simp only [stationResidual, hi0, errFun, errFunInv, runBEM, hit1, bemPasses, bemPass, hRaf, relativeWind, real_deg2rad, hal]
  rw [hcl, hcd, hRe af haf (x.aoa_op i) _ (x.Re i)]
  rfl

/-! ## Witnesses -/

/-- The sample blade at a tip-speed ratio of `2π` (12 revolutions per minute): direct mode. -/
noncomputable def directTwist : TwistIn ℝ where
  blade := plainBlade
  Uhub := 10
  tsr := 2 * Real.pi
  pitch := 0
  nOpt := 2
  s_opt_theta i := i
  theta_in i := 1 / 5 - i / 20
  aoa_op _ := 1 / 2
  rthick i := if i = 0 then 100 else 20
  inverse := false
  optimize := false
  margin := 0
  inn_af := false

/-- Lift equal to the angle of attack, no drag. -/
noncomputable def slopeTables : AfTables ℝ := { plainTables with cl := fun _ a _ _ => a }

/-- Inverse mode for half a radian angle of attack, and a tenth at the thick root. -/
noncomputable def inverseTwist : TwistIn ℝ :=
  { directTwist with inverse := true, blade := { plainBlade with af := slopeTables }, aoa_op := fun i => if i = 0 then 1 / 10 else 1 / 2 }

theorem plainBq_onlyValueError : OnlyValueError plainBq := fun f a b e h => by simp [plainBq] at h

theorem directTwist_Omega : directTwist.Omega = 12 := by
  have := Real.pi_ne_zero
  simp only [TwistIn.Omega, directTwist, plainBlade, num_real]
  push_cast
  field_simp
  norm_num

theorem inverseTwist_Omega : inverseTwist.Omega = 12 := directTwist_Omega

theorem directTwist_ready (pchip : Pchip ℝ) : TwistReady cornerFit pchip directTwist where
  fit _ _ _ _ _ _ := ⟨_, rfl⟩
  span := by norm_num [directTwist, plainBlade]
  angles := by norm_num [directTwist, plainBlade, plainTables]
  tables := by norm_num [directTwist, plainBlade, plainTables]
  options := by simp [directTwist]
  thin := by simp [directTwist]
  aoa := by simp [directTwist]
  smooth := by simp [directTwist]
  rotating := by rw [directTwist_Omega]; norm_num

theorem inverseTwist_aoa : ∀ i < inverseTwist.blade.n, 1 / 10000 ≤ |inverseTwist.aoa_op i - Real.pi| := by
  intro i _
  have := Real.pi_gt_three
  rw [abs_sub_comm, abs_of_pos] <;> simp only [inverseTwist] <;> split_ifs <;> linarith

theorem inverseTwist_ready (pchip : Pchip ℝ) : TwistReady cornerFit pchip inverseTwist where
  fit _ _ _ _ _ _ := ⟨_, rfl⟩
  span := by norm_num [inverseTwist, plainBlade]
  angles := by norm_num [inverseTwist, slopeTables, plainTables]
  tables := by norm_num [inverseTwist, slopeTables, plainTables]
  options := by simp [inverseTwist, directTwist]
  thin _ := ⟨1, by norm_num [inverseTwist, plainBlade], by norm_num [inverseTwist, directTwist]⟩
  aoa _ := inverseTwist_aoa
  smooth := by simp [inverseTwist, directTwist]
  rotating := by rw [inverseTwist_Omega]; norm_num

/-- C79, C71, C72 apply to the sample blade in inverse mode; the airfoils do not depend on the Reynolds number. -/
example (pchip : Pchip ℝ) : ∃ o, inverseTwist.compute cornerFit plainBq pchip = .ok o :=
  twist_component_total _ _ plainBq_onlyValueError _ _ (inverseTwist_ready pchip)

theorem slopeTables_airfoil (i : ℕ) : ∃ a, slopeTables.airfoil cornerFit 0 i = .ok a ∧ ∀ x y, a.toI.evaluate x y = (x, 0) := by
  have e : slopeTables.airfoil cornerFit 0 i = .ok _ := rfl
  refine ⟨_, e, fun x y => ?_⟩
  have hlen : (arr slopeTables.nRe slopeTables.Re).length < 2 := by simp [arr_length, slopeTables, plainTables]
  simp only [CCAf.toI, hlen, if_true]
  simp [CCAf.evaluate, matTwice, AfTables.slice, slopeTables, plainTables]

theorem inverseTwist_tab : (if 1 < inverseTwist.blade.af.nTab then inverseTwist.blade.af.nTab / 2 else 0) = 0 := rfl

/-- The twist of the sample blade: 45 degrees inflow angle less half a radian, at every station. -/
theorem inverseTwist_theta {pchip : Pchip ℝ} {o : TwistOut ℝ} (h : inverseTwist.compute cornerFit plainBq pchip = .ok o) :
    ∀ i < 3, o.theta i = Real.pi / 4 - 1 / 2 ∧ o.theta i < Real.pi / 9 := by
  obtain ⟨afs, R, d, idx, found, hR, -, hidx, hthick, hcap, hst⟩ := TwistIn.inverse_found rfl rfl rfl rfl rfl h inverseTwist_aoa
  have hpi := Real.pi_lt_d2
  have h1 : idx ≤ 1 := by
    by_contra hgt
    have := hthick 1 (by omega)
    norm_num [inverseTwist, directTwist] at this
  have h2 : idx ≠ 0 := by
    rintro rfl
    norm_num [inverseTwist, directTwist] at hidx
  obtain rfl : idx = 1 := by omega
  have hf : ∀ i < 3, found i = Real.pi / 4 - 1 / 2 := by
    intro i hi
    obtain ⟨af, phi, w, -, -, ha, -, hphi, hth⟩ := hst i hi
    have hph : phi = Real.pi / 4 := by
      obtain ⟨-, -, -, -, -, hit, -⟩ := build_data hR
      have hit1 : R.iterRe = 1 := hit
      simp only [stationPhi, inverseTwist_Omega, num_real, decide_eq_true_eq, show ¬ ((12 : ℝ) = 0) by norm_num, if_false,
        hit1, one_ne_zero, solvePhi, plainBq, Except.ok.injEq, Prod.mk.injEq] at hphi
      exact hphi.1.symm
    have hal : inverseTwist.aoa_op (max i 1) = 1 / 2 := by
      simp only [inverseTwist]
      rw [if_neg (by omega)]
    rw [hth, ha, hal, hph]
    simp [inverseTwist, directTwist]
  have hlt : Real.pi / 4 - 1 / 2 < Real.pi / 9 := by linarith
  intro i hi
  have := hcap.outboard i hi fun j _ hj => by rw [hf j hj]; exact hlt.le
  rw [this, hf i hi]
  exact ⟨rfl, hlt⟩

/-- C80 applies to the outer stations of the sample blade. -/
example (pchip : Pchip ℝ) : ∃ o afs R phi, inverseTwist.compute cornerFit plainBq pchip = .ok o ∧
    (inverseTwist.blade.args (fun _ => 0) afs false).build = .ok R ∧ phi - (o.theta 1 + 0 * (Real.pi / 180)) = 1 / 2 := by
  obtain ⟨o, h⟩ := twist_component_total _ _ plainBq_onlyValueError _ _ (inverseTwist_ready pchip)
  obtain ⟨afs, R, d, phi, w, h1, -, h3, -⟩ := twist_inverse_partial _ _ _ _ o rfl rfl rfl rfl rfl h 1
    (by norm_num [inverseTwist, plainBlade]) (inverseTwist_theta h 1 (by norm_num)).2 inverseTwist_aoa
    ⟨1, le_rfl, by norm_num [inverseTwist, directTwist]⟩ (by
      intro af haf a Re Re'
      rw [inverseTwist_tab] at haf
      obtain ⟨a', e1, e2⟩ := slopeTables_airfoil 1
      obtain rfl : a' = af := Except.ok.inj (e1.symm.trans haf)
      rw [e2, e2])
  exact ⟨o, afs, R, phi, h, h1, by simpa [inverseTwist, directTwist] using h3⟩

/-- An interpolation that stays below every bound of its data. -/
example : ShapePreserving fun _ ys => match ys with | [] => .error .valueError | y :: _ => .ok fun _ => y := by
  intro xs ys f h c hc lo hi _ _ q _ _
  cases ys with
  | nil => cases h
  | cons y ys => cases h; exact hc y (by simp)

/-- The outer station of the sample blade lies inside the tip radius: it runs faster than requested. -/
example : directTwist.tsr < directTwist.speed * directTwist.blade.Rtip / directTwist.Uhub :=
  tip_speed_false directTwist (by norm_num [directTwist]) (by have := Real.pi_pos; simp only [directTwist]; positivity)
    (by norm_num [directTwist, plainBlade]) (by norm_num [directTwist, plainBlade])

/-- **C80** is false inboard of the first thin station: there the twist is chosen for the angle of attack of the first thin
station, but with lift and drag at another angle of attack; the inflow angle found by the inverse analysis does not solve the
equations that the direct analysis of the returned twist solves, unless by accident. -/
theorem twist_root_false : ∃ (fit : SplineFit ℝ) (bq : RootFinder ℝ) (x : TwistIn ℝ), ∀ pchip, ∃ o, x.inverse = true ∧
    x.inn_af = false ∧ x.blade.tilt = 0 ∧ x.blade.yaw = 0 ∧ x.blade.shearExp = 0 ∧ x.compute fit bq pchip = .ok o ∧
    o.theta 0 < Real.pi / 9 ∧ ∃ afs R d phi w, (x.blade.args (fun _ => 0) afs false).build = .ok R ∧
      stationPhi bq { R with inv := some d } (x.pitch * (Real.pi / 180)) x.Omega (rotorWind R x.Uhub x.Omega 0) 0 = .ok (phi, w) ∧
      (d.cl 0, d.cd 0) = (R.af 0).evaluate (x.aoa_op 0) (x.Re 0) ∧
      phi - (o.theta 0 + x.pitch * (Real.pi / 180)) ≠ x.aoa_op 0 ∧
      stationResidual { R with theta := o.theta } x.Uhub x.Omega x.pitch 0 0 phi
        ≠ stationResidual { R with inv := some d } x.Uhub x.Omega x.pitch 0 0 phi := by
  refine ⟨cornerFit, plainBq, inverseTwist, fun pchip => ?_⟩
  obtain ⟨o, h⟩ := twist_component_total _ _ plainBq_onlyValueError _ _ (inverseTwist_ready pchip)
  obtain ⟨afs, R, d, idx, found, hR, -, -, -, -, hst⟩ := TwistIn.inverse_found rfl rfl rfl rfl rfl h inverseTwist_aoa
  obtain ⟨af, phi, w, haf, hRaf, -, hc, hphi, -⟩ := hst 0 (by norm_num [inverseTwist, plainBlade])
  obtain ⟨hth, hlt⟩ := inverseTwist_theta h 0 (by norm_num)
  have hR' := plainBlade_build (fun _ => 0) afs false
  obtain rfl := Except.ok.inj (hR'.symm.trans hR)
  have hph : phi = Real.pi / 4 := by
    simp only [stationPhi, inverseTwist_Omega, num_real, decide_eq_true_eq, show ¬ ((12 : ℝ) = 0) by norm_num, if_false,
      show plainRotor.iterRe = 1 from rfl, one_ne_zero, solvePhi, plainBq, Except.ok.injEq, Prod.mk.injEq] at hphi
    exact hphi.1.symm
  rw [inverseTwist_tab] at haf
  obtain ⟨a', e1, e2⟩ := slopeTables_airfoil 0
  obtain rfl : a' = af := Except.ok.inj (e1.symm.trans haf)
  have hpitch : inverseTwist.pitch * (Real.pi / 180) = 0 := by simp [inverseTwist, directTwist]
  have ha0 : inverseTwist.aoa_op 0 = 1 / 10 := by simp [inverseTwist]
  have hal : phi - (o.theta 0 + inverseTwist.pitch * (Real.pi / 180)) = 1 / 2 := by rw [hpitch, hth, hph]; ring
  refine ⟨o, rfl, rfl, rfl, rfl, rfl, h, hlt, afs, _, d, phi, w, hR, hphi, by rw [hRaf]; exact hc, by rw [hal, ha0]; norm_num, ?_⟩
  have hcl : d.cl 0 = 1 / 10 ∧ d.cd 0 = 0 := by
    rw [e2, ha0] at hc
    exact ⟨congrArg Prod.fst hc, congrArg Prod.snd hc⟩
  simp only at hRaf
  have hit1 : plainRotor.iterRe - 1 = 0 := rfl
  simp only [stationResidual, show plainRotor.inv = none from rfl, errFun, errFunInv, runBEM, hit1, bemPasses, bemPass,
    relativeWind, real_deg2rad, hal, hRaf, e2, hcl.1, hcl.2]
  have hw : plainRotor.opts.wakeRot = false := rfl
  have key : ∀ cl : ℝ, 0 < cl → cl ≤ 1 → ∀ Vx Vy : ℝ,
      (inductionFactors (plainRotor.r 0) (plainRotor.chord 0) plainRotor.Rhub plainRotor.Rtip phi cl 0 plainRotor.B Vx Vy
        plainRotor.opts).fzero = Real.sin (Real.pi / 4) * (1 + 6 / 10 / Real.pi * cl * Real.cos (Real.pi / 4) / 2)
          - Real.cos (Real.pi / 4) / (Vy / Vx) := by
    intro cl h0 h1 Vx Vy
    have hk : kSpec plainRotor.opts plainRotor.B (plainRotor.r 0) (plainRotor.chord 0) plainRotor.Rhub plainRotor.Rtip phi cl 0
        = 6 / 10 / Real.pi * cl * Real.cos (Real.pi / 4) / 2 := by
      have hs : Real.sin (Real.pi / 4) ^ 2 = 1 / 2 := by rw [Real.sin_pi_div_four, div_pow, Real.sq_sqrt (by norm_num)]; norm_num
      have := Real.pi_ne_zero
      simp only [kSpec, lossSpec, cnSpec, plainRotor, demoRotor, hph, hs, Bool.false_eq_true, if_false, zero_mul, ite_self, add_zero]
      generalize Real.cos (Real.pi / 4) = c
      push_cast
      field_simp
      norm_num
      ring
    have hkpos : 0 < 6 / 10 / Real.pi * cl * Real.cos (Real.pi / 4) / 2 := by
      have : 0 < Real.cos (Real.pi / 4) := by rw [Real.cos_pi_div_four]; positivity
      have := Real.pi_pos
      positivity
    have hkle : 6 / 10 / Real.pi * cl * Real.cos (Real.pi / 4) / 2 ≤ 2 / 3 := by
      have hc1 := Real.cos_le_one (Real.pi / 4)
      have hc0 : 0 < Real.cos (Real.pi / 4) := by rw [Real.cos_pi_div_four]; positivity
      have hp := Real.pi_gt_three
      have h6 : 6 / 10 / Real.pi ≤ 1 / 5 := by rw [div_div, div_le_div_iff₀ (by positivity) (by norm_num)]; linarith
      have h6' : 0 < 6 / 10 / Real.pi := by positivity
      have : 6 / 10 / Real.pi * cl * Real.cos (Real.pi / 4) ≤ 1 / 5 * 1 * 1 := by gcongr
      linarith
    have hpos : 0 < phi := by rw [hph]; have := Real.pi_pos; positivity
    have h2 := options_wake_residual (plainRotor.r 0) (plainRotor.chord 0) plainRotor.Rhub plainRotor.Rtip phi cl 0 plainRotor.B
      Vx Vy plainRotor.opts hw
    simp only [if_pos hpos] at h2
    rw [h2, (indOut_eq _ _ _ _ _ _ _ _ _ _ _).1, hk, axial_momentum hpos hkle, hph]
    generalize 6 / 10 / Real.pi * cl * Real.cos (Real.pi / 4) / 2 = k at hkpos hkle ⊢
    have : 1 - k / (1 + k) = 1 / (1 + k) := by field_simp; ring
    rw [this]
    field_simp
  have hst : ∀ (R : Rotor ℝ) t, rotorWind { R with theta := t } = rotorWind R := fun _ _ => rfl
  rw [key _ (by norm_num) (by norm_num), key _ (by norm_num) (by norm_num)]
  intro heq
  have hc0 : 0 < Real.cos (Real.pi / 4) := by rw [Real.cos_pi_div_four]; positivity
  have hs0 : 0 < Real.sin (Real.pi / 4) := by rw [Real.sin_pi_div_four]; positivity
  have h3 := mul_left_cancel₀ hs0.ne' (sub_left_injective heq)
  have hp : 6 / 10 / Real.pi * Real.cos (Real.pi / 4) ≠ 0 := by have := Real.pi_pos; positivity
  apply hp
  linarith

/-! ## C81 -/

/-- **C81** is false: whatever the inputs, the outputs `P`, `T`, `Q` and `M` are zero, while for the sample blade the moment
coefficient that the same call returns is positive (and the moment is that coefficient times a positive factor). -/
theorem twist_outputs_false :
    (∀ (fit : SplineFit ℝ) (bq : RootFinder ℝ) (pchip : Pchip ℝ) (x : TwistIn ℝ) (o : TwistOut ℝ),
      x.compute fit bq pchip = .ok o → o.P = 0 ∧ o.T = 0 ∧ o.Q = 0 ∧ o.M = 0) ∧
    ∃ (fit : SplineFit ℝ) (bq : RootFinder ℝ) (x : TwistIn ℝ), ∀ pchip, ∃ o, x.compute fit bq pchip = .ok o ∧ 0 < o.CM := by
  refine ⟨fun fit bq pchip x o h => ?_, cornerFit, plainBq, directTwist, fun pchip => ?_⟩
  · obtain ⟨_, _, _, _, _, _, -, -, -, -, -, -, -, -, -, h1, h2, h3, h4, -⟩ := TwistIn.compute_inv h
    exact ⟨h1, h2, h3, h4⟩
  obtain ⟨o, h⟩ := twist_component_total _ _ plainBq_onlyValueError _ _ (directTwist_ready pchip)
  refine ⟨o, h, ?_⟩
  obtain ⟨afs, R, L, e, c, C, hafs, hR, ht, hL, he, hc, hC, -, hCM, -⟩ := TwistIn.compute_inv h
  have hR' := plainBlade_build (fun _ => 0) afs false
  obtain rfl := Except.ok.inj (hR'.symm.trans hR)
  have hth : o.theta = plainRotor.theta := by
    simp only [TwistIn.twist, directTwist, Bool.false_eq_true, if_false, Except.ok.injEq] at ht
    rw [← ht]
    rfl
  obtain ⟨l, hl, -, hl3⟩ := plainTables_airfoils 3
  obtain rfl : afs = l := Except.ok.inj (hafs.symm.trans hl)
  rw [hth] at he
  rw [directTwist_Omega] at he
  rw [(sameDesign_loads _ _ _ _ _ _).evaluate] at he
  set R3 : Rotor ℝ := { plainRotor with af := afList afs } with hR3
  have he' : (evaluate plainBq (R3.withSectors 1) [⟨10, 12, 0⟩] true).2 = .ok e := he
  have hax : Axisymmetric R3 := ⟨rfl, rfl, rfl⟩
  obtain ⟨x1, e1⟩ := List.length_eq_one_iff.mp (evaluate_length he')
  have hx1 : e.conds[0]? = some x1 := by rw [e1]; rfl
  obtain rfl : x1 = c := by
    rw [e1] at hc
    exact Except.ok.inj hc
  obtain ⟨L1, hL1, -, -, hMb, -⟩ := hax.outputs le_rfl he' (m := 0) (c := ⟨10, 12, 0⟩) rfl hx1
  obtain ⟨-, C', hC', -, -, -, -, -, -, -, hCMb⟩ := power_coefficients he' (m := 0) (c := ⟨10, 12, 0⟩) rfl hx1
  obtain rfl : C' = C := Option.some.inj (hC'.symm.trans hC)
  obtain ⟨L2, hL2, hs⟩ := loads_congr_af plainBq plainRotor (afList afs) (fun i hi => hl3 i hi) 10 12 0 0 hL1
  have hM := plainRotor_M hL2
  have hbi : bladeInt R3 L1 = bladeInt plainRotor L2 := by simp only [bladeInt, hs]; rfl
  rw [hCM, hCMb, hMb, hbi]
  have hpi := Real.pi_pos
  have h1 : (R3.withSectors 1).rho = 1225 / 1000 := rfl
  have h2 : (R3.withSectors 1).rotorR = 60 := rfl
  simp only [h1, h2]
  positivity

end Verif
