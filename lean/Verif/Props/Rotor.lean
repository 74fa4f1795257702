import Verif.Lemmas.Sectors
import Verif.Props.History
import Verif.Props.Loads
import Mathlib.Algebra.BigOperators.Field
import Mathlib.RingTheory.RootsOfUnity.Complex
import Mathlib.Tactic.Linarith
import Mathlib.Tactic.Positivity
import Mathlib.Tactic.NormNum

/-!
# Rotor outputs: power and coefficients (C46), sector averages (C48), one sector (C47)
-/

namespace Verif

open Finset

/-- The accumulated quantities behind one entry of the result of `evaluate`. -/
theorem evaluate_entry {bq : RootFinder ℝ} {R : Rotor ℝ} {cs : List (Cond ℝ)} {co : Bool} {o : EvalOut ℝ}
    (h : (evaluate bq R cs co).2 = .ok o) {m : ℕ} {c : Cond ℝ} {x : CondOut ℝ} (hc : cs[m]? = some c)
    (hx : o.conds[m]? = some x) :
    condAcc bq R c = .ok x.acc ∧ x.P = power x.acc.Q c.Omega ∧ x.C = (if co then some (coefs R c x.acc) else none) := by
  have hf := evaluate_conditions bq R cs co o h
  obtain ⟨hm, rfl⟩ := List.getElem?_eq_some_iff.mp hc
  obtain ⟨hm', rfl⟩ := List.getElem?_eq_some_iff.mp hx
  obtain ⟨o1, h1, h2⟩ := (List.forall₂_iff_get.mp hf).2 m hm hm'
  obtain ⟨a, h3, _, h4⟩ := (evaluate_single bq R _ co o1).mp h1
  rw [h2] at h4
  simp only [List.cons.injEq, and_true] at h4
  simp only [List.get_eq_getElem] at h4 h3
  rw [h4]
  exact ⟨h3, rfl, rfl⟩

/-- There is one result per condition. -/
theorem evaluate_length {bq : RootFinder ℝ} {R : Rotor ℝ} {cs : List (Cond ℝ)} {co : Bool} {o : EvalOut ℝ}
    (h : (evaluate bq R cs co).2 = .ok o) : o.conds.length = cs.length :=
  (evaluate_conditions bq R cs co o h).length_eq.symm

/-! ## C46 -/

/-- **C46** Power is torque times rotational speed (Omega in rpm), and each coefficient is the quantity over the dynamic
pressure, the area of the disc of radius `rotorR` and, where appropriate, the radius or the wind speed. -/
theorem power_coefficients {bq : RootFinder ℝ} {R : Rotor ℝ} {cs : List (Cond ℝ)} {o : EvalOut ℝ}
    (h : (evaluate bq R cs true).2 = .ok o) {m : ℕ} {c : Cond ℝ} {x : CondOut ℝ} (hc : cs[m]? = some c)
    (hx : o.conds[m]? = some x) :
    let q := R.rho * c.Uinf ^ 2 / 2
    let A := Real.pi * R.rotorR ^ 2
    x.P.val = x.acc.Q.val * (c.Omega * (2 * Real.pi) / 60) ∧
    ∃ C, x.C = some C ∧
      C.CP.val = x.P.val / (q * A * c.Uinf) ∧ C.CT.val = x.acc.T.val / (q * A) ∧
      C.CY.val = x.acc.Y.val / (q * A) ∧ C.CZ.val = x.acc.Z.val / (q * A) ∧
      C.CQ.val = x.acc.Q.val / (q * A * R.rotorR) ∧ C.CMy.val = x.acc.My.val / (q * A * R.rotorR) ∧
      C.CMz.val = x.acc.Mz.val / (q * A * R.rotorR) ∧ C.CMb.val = x.acc.Mb.val / (q * A * R.rotorR) := by
  obtain ⟨_, h2, h3⟩ := evaluate_entry h hc hx
  intro q A
  have hq : (1 : ℝ) / 2 * R.rho * c.Uinf ^ 2 = q := by simp only [q]; ring
  refine ⟨?_, _, h3, ?_⟩
  · rw [h2]; simp only [power, num_real]; push_cast; ring
  · rw [h2]
    simp only [coefs, power, num_real, Nat.cast_ofNat, hq]
    refine ⟨?_, ?_, ?_, ?_, ?_, ?_, ?_, ?_⟩ <;> first | rfl | (simp only [A]; ring1)

/-- **C46** The power coefficient is the torque coefficient times the tip-speed ratio. -/
theorem power_torque_coefficient {bq : RootFinder ℝ} {R : Rotor ℝ} {cs : List (Cond ℝ)} {o : EvalOut ℝ}
    (h : (evaluate bq R cs true).2 = .ok o) {m : ℕ} {c : Cond ℝ} {x : CondOut ℝ} (hc : cs[m]? = some c)
    (hx : o.conds[m]? = some x) (hR : R.rotorR ≠ 0) :
    ∃ C, x.C = some C ∧ C.CP.val = C.CQ.val * (c.Omega * (2 * Real.pi) / 60 * R.rotorR / c.Uinf) := by
  obtain ⟨hP, C, hC, h1, _, _, _, h5, _⟩ := power_coefficients h hc hx
  refine ⟨C, hC, ?_⟩
  rw [h1, h5, hP]
  generalize R.rho * c.Uinf ^ 2 / 2 * (Real.pi * R.rotorR ^ 2) = d
  rw [div_mul_div_comm, show x.acc.Q.val * (c.Omega * (2 * Real.pi) / 60 * R.rotorR)
    = R.rotorR * (x.acc.Q.val * (c.Omega * (2 * Real.pi) / 60)) by ring, show d * R.rotorR * c.Uinf = R.rotorR * (d * c.Uinf) by ring,
    mul_div_mul_left _ _ hR]

/-! ## C48 -/

/-- **C48** Thrust, torque and blade moment are the averages over the equally spaced azimuth angles `k·360°/nSector` of the
blade integrals of the loads `distributedAeroLoads` returns there, times the number of blades for thrust and torque; `(Y, Z)`
and `(My, Mz)` are the averages of the blade force and of the flap moment turned by the azimuth angle; `W` is that of the last
azimuth. -/
theorem sector_averages {bq : RootFinder ℝ} {R : Rotor ℝ} {cs : List (Cond ℝ)} {co : Bool} {o : EvalOut ℝ}
    (h : (evaluate bq R cs co).2 = .ok o) {m : ℕ} {c : Cond ℝ} {x : CondOut ℝ} (hc : cs[m]? = some c)
    (hx : o.conds[m]? = some x) :
    ∃ L : ℕ → LoadsOut ℝ,
      (∀ k < R.nSector, (distributedAeroLoads bq R c.Uinf c.Omega c.pitch (k * (360 / R.nSector))).2 = .ok (L k)) ∧
      let I := fun k => bladeInt R (L k)
      let psi := fun k : ℕ => 2 * Real.pi * k / R.nSector
      let mean := fun f : ℕ → ℝ => (∑ k ∈ range R.nSector, f k) / R.nSector
      x.acc.T.val = R.B * mean (fun k => (I k).T) ∧ x.acc.Q.val = R.B * mean (fun k => (I k).Q) ∧
      x.acc.Mb.val = mean (fun k => (I k).M) ∧
      x.acc.Y.val = R.B * mean (fun k => Real.cos (psi k) * (I k).Y - Real.sin (psi k) * (I k).Z) ∧
      x.acc.Z.val = R.B * mean (fun k => Real.sin (psi k) * (I k).Y + Real.cos (psi k) * (I k).Z) ∧
      x.acc.My.val = R.B * mean (fun k => Real.cos (psi k) * (I k).M) ∧
      x.acc.Mz.val = R.B * mean (fun k => Real.sin (psi k) * (I k).M) ∧
      (∀ l, R.nSector = l + 1 → x.acc.W = some (stationArr (L l).stations SecLoads.W)) := by
  obtain ⟨h1, _, _⟩ := evaluate_entry h hc hx
  obtain ⟨L, hL, hT, hY, hZ, hQ, hMy, hMz, hMb, hW⟩ := condAcc_sum h1
  refine ⟨L, hL, ?_⟩
  intro I psi mean
  have hpsi : ∀ k, sectorAz R.nSector k = psi k := by intro k; simp only [sectorAz, psi]; ring
  have hval : ∀ J k v w, (bladeQuant R J (L k) v w).val = v := by
    intro J k v w
    simp only [bladeQuant]
    generalize (if R.derivatives = true then J else none) = j
    cases j <;> rfl
  simp only [hpsi] at hY hZ hMy hMz
  refine ⟨?_, ?_, ?_, ?_, ?_, ?_, ?_, hW⟩
  · rw [hT]; simp only [Quant.sum, Quant.map2, hval, mean, I, sum_div, mul_sum]; exact sum_congr rfl fun _ _ => by ring
  · rw [hQ]; simp only [Quant.sum, Quant.map2, hval, mean, I, sum_div, mul_sum]; exact sum_congr rfl fun _ _ => by ring
  · rw [hMb]; simp only [Quant.sum, Quant.map2, hval, mean, I, sum_div]
  · rw [hY]; simp only [Quant.sum, Quant.map2, hval, mean, I, sum_div, mul_sum]; exact sum_congr rfl fun _ _ => by ring
  · rw [hZ]; simp only [Quant.sum, Quant.map2, hval, mean, I, sum_div, mul_sum]; exact sum_congr rfl fun _ _ => by ring
  · rw [hMy]; simp only [Quant.sum, Quant.map2, hval, mean, I, sum_div, mul_sum]; exact sum_congr rfl fun _ _ => by ring
  · rw [hMz]; simp only [Quant.sum, Quant.map2, hval, mean, I, sum_div, mul_sum]; exact sum_congr rfl fun _ _ => by ring

/-- The cosines and the sines of two or more equally spaced angles sum to zero. -/
theorem sum_cos_sin (ns : ℕ) (h : 2 ≤ ns) :
    ∑ k ∈ range ns, Real.cos (2 * Real.pi * k / ns) = 0 ∧ ∑ k ∈ range ns, Real.sin (2 * Real.pi * k / ns) = 0 := by
  have h0 := (Complex.isPrimitiveRoot_exp ns (by omega)).geom_sum_eq_zero (by omega)
  have h1 : ∀ k : ℕ, Complex.exp (2 * Real.pi * Complex.I / ns) ^ k
      = ⟨Real.cos (2 * Real.pi * k / ns), Real.sin (2 * Real.pi * k / ns)⟩ := by
    intro k
    rw [← Complex.exp_nat_mul]
    have : (k : ℂ) * (2 * Real.pi * Complex.I / ns) = ((2 * Real.pi * k / ns : ℝ) : ℂ) * Complex.I := by
      push_cast; ring
    rw [this, Complex.exp_mul_I]
    apply Complex.ext
    · simp only [Complex.add_re, Complex.mul_re, Complex.I_re, Complex.I_im, mul_zero, mul_one, zero_sub]
      rw [← Complex.ofReal_cos, ← Complex.ofReal_sin, Complex.ofReal_re, Complex.ofReal_im]; ring
    · simp only [Complex.add_im, Complex.mul_im, Complex.I_re, Complex.I_im, mul_zero, mul_one, add_zero]
      rw [← Complex.ofReal_cos, ← Complex.ofReal_sin, Complex.ofReal_re, Complex.ofReal_im]; ring
  simp only [h1] at h0
  have hre := congrArg Complex.re h0
  have him := congrArg Complex.im h0
  rw [Complex.re_sum] at hre
  rw [Complex.im_sum] at him
  exact ⟨hre, him⟩

/-- **C48** When the loads are the same at all the azimuth angles and there are at least two of them, the in-plane forces and
moments of the rotor vanish, and thrust, torque and blade moment are those of one blade (times `B`). -/
theorem sector_averages_uniform {bq : RootFinder ℝ} {R : Rotor ℝ} {cs : List (Cond ℝ)} {co : Bool} {o : EvalOut ℝ}
    (h : (evaluate bq R cs co).2 = .ok o) {m : ℕ} {c : Cond ℝ} {x : CondOut ℝ} (hc : cs[m]? = some c)
    (hx : o.conds[m]? = some x) (hns : 2 ≤ R.nSector) (s : List (Station ℝ))
    (hs : ∀ k < R.nSector, ∀ L, (distributedAeroLoads bq R c.Uinf c.Omega c.pitch (k * (360 / R.nSector))).2 = .ok L →
      L.stations = s) :
    let I := bladeInt R ⟨s, [], []⟩
    x.acc.Y.val = 0 ∧ x.acc.Z.val = 0 ∧ x.acc.My.val = 0 ∧ x.acc.Mz.val = 0 ∧
    x.acc.T.val = R.B * I.T ∧ x.acc.Q.val = R.B * I.Q ∧ x.acc.Mb.val = I.M := by
  obtain ⟨L, hL, hT, hQ, hMb, hY, hZ, hMy, hMz, _⟩ := sector_averages h hc hx
  intro I
  have hI : ∀ k ∈ range R.nSector, bladeInt R (L k) = I := by
    intro k hk
    have := hs k (mem_range.mp hk) _ (hL k (mem_range.mp hk))
    simp only [bladeInt, I, this]
  have hn : (R.nSector : ℝ) ≠ 0 := by exact_mod_cast (by omega : R.nSector ≠ 0)
  obtain ⟨c0, s0⟩ := sum_cos_sin R.nSector hns
  have hmean : ∀ v : ℝ, (∑ _k ∈ range R.nSector, v) / R.nSector = v := by
    intro v
    rw [sum_const, card_range, nsmul_eq_mul]
    field_simp
  have hs' : ∀ f : TTOut ℝ → ℕ → ℝ, ∑ k ∈ range R.nSector, f (bladeInt R (L k)) k = ∑ k ∈ range R.nSector, f I k :=
    fun f => sum_congr rfl fun k hk => by rw [hI k hk]
  beta_reduce at hT hQ hMb hY hZ hMy hMz
  refine ⟨?_, ?_, ?_, ?_, ?_, ?_, ?_⟩
  · rw [hY, hs' fun t k => Real.cos (2 * Real.pi * k / R.nSector) * t.Y - Real.sin (2 * Real.pi * k / R.nSector) * t.Z,
      sum_sub_distrib, ← sum_mul, ← sum_mul, c0, s0]; simp
  · rw [hZ, hs' fun t k => Real.sin (2 * Real.pi * k / R.nSector) * t.Y + Real.cos (2 * Real.pi * k / R.nSector) * t.Z,
      sum_add_distrib, ← sum_mul, ← sum_mul, c0, s0]; simp
  · rw [hMy, hs' fun t k => Real.cos (2 * Real.pi * k / R.nSector) * t.M, ← sum_mul, c0]; simp
  · rw [hMz, hs' fun t k => Real.sin (2 * Real.pi * k / R.nSector) * t.M, ← sum_mul, s0]; simp
  · rw [hT, hs' fun t _ => t.T, hmean]
  · rw [hQ, hs' fun t _ => t.Q, hmean]
  · rw [hMb, hs' fun t _ => t.M, hmean]

/-! ## C47 -/

/-- Inflow without tilt, yaw and shear. -/
structure Axisymmetric (R : Rotor ℝ) : Prop where
  tilt : R.tilt = 0
  yaw : R.yaw = 0
  shear : R.shearExp = 0

/-- The same rotor with another number of sectors. -/
def Rotor.withSectors (R : Rotor ℝ) (ns : ℕ) : Rotor ℝ := { R with nSector := ns }

theorem Axisymmetric.wind {R : Rotor ℝ} (h : Axisymmetric R) (U Omega az az' : ℝ) :
    rotorWind R U Omega az = rotorWind R U Omega az' := by
  funext i
  simp only [rotorWind, windComponents, shearedWind, h.tilt, h.yaw, h.shear, num_real, Real.sin_zero, Real.rpow_zero,
    mul_zero, zero_mul, add_zero, sub_zero]

/-- The loads at any azimuth, whatever the number of sectors. -/
theorem Axisymmetric.loads {R : Rotor ℝ} (h : Axisymmetric R) (bq : RootFinder ℝ) (U Omega pitch az az' : ℝ) (ns ns' : ℕ)
    {L : LoadsOut ℝ} (hL : (distributedAeroLoads bq (R.withSectors ns) U Omega pitch az).2 = .ok L) :
    ∃ L', (distributedAeroLoads bq (R.withSectors ns') U Omega pitch az').2 = .ok L' ∧ L'.stations = L.stations := by
  apply distributedAeroLoads_of_stations
  have h1 := distributedAeroLoads_stations (Prod.ext rfl hL)
  rw [← h1, show rotorWind (R.withSectors ns) = rotorWind R from rfl, show rotorWind (R.withSectors ns') = rotorWind R from rfl,
    h.wind U Omega (deg2rad az) (deg2rad az')]
  exact solveStations_congr fun i _ => SameCore.solveStation (S := R.withSectors ns') (R := R.withSectors ns)
    ⟨rfl, rfl, rfl, rfl, rfl, rfl, rfl, rfl⟩ bq _ _ _ i rfl rfl rfl rfl (fun _ => rfl)

/-- The rotor outputs of an axisymmetric inflow for any positive number of sectors, in terms of the loads at azimuth zero. -/
theorem Axisymmetric.outputs {R : Rotor ℝ} (hR : Axisymmetric R) {bq : RootFinder ℝ} {ns : ℕ} (hns : 1 ≤ ns)
    {cs : List (Cond ℝ)} {co : Bool} {o : EvalOut ℝ}
    (h : (evaluate bq (R.withSectors ns) cs co).2 = .ok o) {m : ℕ} {c : Cond ℝ} {x : CondOut ℝ} (hc : cs[m]? = some c)
    (hx : o.conds[m]? = some x) :
    ∃ L, (distributedAeroLoads bq R c.Uinf c.Omega c.pitch 0).2 = .ok L ∧
      let I := bladeInt R L
      x.acc.T.val = R.B * I.T ∧ x.acc.Q.val = R.B * I.Q ∧ x.acc.Mb.val = I.M ∧ x.acc.Mz.val = 0 ∧
      x.acc.W = some (stationArr L.stations SecLoads.W) ∧
      (x.acc.Y.val = if ns = 1 then R.B * I.Y else 0) ∧ (x.acc.Z.val = if ns = 1 then R.B * I.Z else 0) ∧
      (x.acc.My.val = if ns = 1 then R.B * I.M else 0) := by
  obtain ⟨L, hL, hT, hQ, hMb, hY, hZ, hMy, hMz, hW⟩ := sector_averages h hc hx
  obtain ⟨L0, hL0, hs0⟩ := hR.loads bq c.Uinf c.Omega c.pitch _ 0 ns R.nSector (hL 0 (by simpa [Rotor.withSectors] using by omega))
  have hst : ∀ k < ns, (L k).stations = L0.stations := by
    intro k hk
    obtain ⟨L1, hL1, hs1⟩ := hR.loads bq c.Uinf c.Omega c.pitch _ 0 ns R.nSector (hL k hk)
    rw [hL0] at hL1
    rw [← hs1, ← Except.ok.inj hL1]
  have hI : ∀ k < ns, bladeInt (R.withSectors ns) (L k) = bladeInt R L0 := by
    intro k hk
    simp only [bladeInt, hst k hk, Rotor.withSectors]
  refine ⟨L0, hL0, ?_⟩
  have hlast : x.acc.W = some (stationArr L0.stations SecLoads.W) := by
    obtain ⟨l, rfl⟩ : ∃ l, ns = l + 1 := ⟨ns - 1, by omega⟩
    rw [hW l rfl, hst l (by omega)]
  by_cases h1 : ns = 1
  · subst h1
    have hI0 := hI 0 (by omega)
    simp only [show (R.withSectors 1).nSector = 1 from rfl, show (R.withSectors 1).B = R.B from rfl, sum_range_one, hI0,
      Nat.cast_zero, Nat.cast_one, mul_zero, zero_div, div_one, Real.cos_zero, Real.sin_zero, one_mul, zero_mul, sub_zero,
      zero_add] at hT hQ hMb hY hZ hMy hMz
    simp only [if_true]
    exact ⟨hT, hQ, hMb, hMz, hlast, hY, hZ, hMy⟩
  · have h2 : 2 ≤ (R.withSectors ns).nSector := by simp only [Rotor.withSectors]; omega
    obtain ⟨g1, g2, g3, g4, g5, g6, g7⟩ := sector_averages_uniform h hc hx h2 L0.stations (by
      intro k hk L' hL'
      rw [hL k hk] at hL'
      rw [← Except.ok.inj hL']
      exact hst k hk)
    simp only [if_neg h1]
    exact ⟨g5, g6, g7, g4, hlast, g1, g2, g3⟩

/-- **C47** (partial) Without tilt, yaw and shear, evaluating with one sector gives the same thrust, torque, power, blade moment,
relative velocity, and the same coefficients of them, as averaging over any number of sectors.  Missing: the side forces `Y`, `Z`
and the moment `My`, for which the claim is false, see `one_sector_false`. -/
theorem one_sector_partial {R : Rotor ℝ} (hR : Axisymmetric R) {bq : RootFinder ℝ} {ns : ℕ} (hns : 1 ≤ ns)
    {cs : List (Cond ℝ)} {o1 on : EvalOut ℝ} (h1 : (evaluate bq (R.withSectors 1) cs true).2 = .ok o1)
    (hn : (evaluate bq (R.withSectors ns) cs true).2 = .ok on) {m : ℕ} {x1 xn : CondOut ℝ}
    (hx1 : o1.conds[m]? = some x1) (hxn : on.conds[m]? = some xn) :
    x1.acc.T.val = xn.acc.T.val ∧ x1.acc.Q.val = xn.acc.Q.val ∧ x1.acc.Mb.val = xn.acc.Mb.val ∧
    x1.acc.Mz.val = xn.acc.Mz.val ∧ x1.P.val = xn.P.val ∧ x1.acc.W = xn.acc.W ∧
    ∃ C1 Cn, x1.C = some C1 ∧ xn.C = some Cn ∧ C1.CT.val = Cn.CT.val ∧ C1.CQ.val = Cn.CQ.val ∧ C1.CP.val = Cn.CP.val ∧
      C1.CMb.val = Cn.CMb.val ∧ C1.CMz.val = Cn.CMz.val := by
  have hm : m < cs.length := by
    have := (List.getElem?_eq_some_iff.mp hx1).1
    rwa [evaluate_length h1] at this
  have hc : cs[m]? = some cs[m] := List.getElem?_eq_getElem hm
  obtain ⟨L, hL, a1, a2, a3, a4, a5, -⟩ := hR.outputs (le_refl 1) h1 hc hx1
  obtain ⟨L', hL', b1, b2, b3, b4, b5, -⟩ := hR.outputs hns hn hc hxn
  rw [hL] at hL'
  obtain rfl := Except.ok.inj hL'
  obtain ⟨p1, C1, hC1, c1, c2, -, -, c3, -, c4, c5⟩ := power_coefficients h1 hc hx1
  obtain ⟨pn, Cn, hCn, d1, d2, -, -, d3, -, d4, d5⟩ := power_coefficients hn hc hxn
  have hP : x1.P.val = xn.P.val := by rw [p1, pn, a2, b2]
  refine ⟨a1.trans b1.symm, a2.trans b2.symm, a3.trans b3.symm, a4.trans b4.symm, hP, a5.trans b5.symm, C1, Cn, hC1, hCn,
    ?_, ?_, ?_, ?_, ?_⟩
  · rw [c2, d2, a1, b1]; rfl
  · rw [c3, d3, a2, b2]; rfl
  · rw [c1, d1, hP]; rfl
  · rw [c5, d5, a3, b3]; rfl
  · rw [c4, d4, a4, b4]; rfl

/-- Either all numbers of sectors can be evaluated or none. -/
theorem one_sector_succeeds {R : Rotor ℝ} (hR : Axisymmetric R) (bq : RootFinder ℝ) (ns : ℕ) (hns : 1 ≤ ns)
    (cs : List (Cond ℝ)) (hne : cs ≠ []) (co : Bool) :
    (∃ o, (evaluate bq (R.withSectors ns) cs co).2 = .ok o) ↔ ∃ o, (evaluate bq (R.withSectors 1) cs co).2 = .ok o := by
  have key : ∀ a b : ℕ, 1 ≤ a → 1 ≤ b → (∃ o, (evaluate bq (R.withSectors a) cs co).2 = .ok o) →
      ∃ o, (evaluate bq (R.withSectors b) cs co).2 = .ok o := by
    rintro a b ha hb ⟨o, ho⟩
    refine evaluate_conditions_ok _ _ _ _ hne fun c hcm => ?_
    obtain ⟨i, hi, rfl⟩ := List.getElem_of_mem hcm
    obtain ⟨o1, g1, g2⟩ := (List.forall₂_iff_get.mp (evaluate_conditions _ _ _ _ _ ho)).2 i hi
      (by rw [evaluate_length ho]; exact hi)
    obtain ⟨acc, g3, -, -⟩ := (evaluate_single _ _ _ _ _).mp g1
    have g4 := (condAcc_ok_iff _ _ _).mp ⟨acc, g3⟩ 0 (by simpa [Rotor.withSectors] using by omega)
    obtain ⟨L, hL⟩ := g4
    obtain ⟨acc', g5⟩ := (condAcc_ok_iff bq (R.withSectors b) cs[i]).mpr fun k _ => by
      obtain ⟨L', hL', -⟩ := hR.loads bq _ _ _ _ _ a b hL
      exact ⟨L', hL'⟩
    obtain ⟨W, hW⟩ := Option.isSome_iff_exists.mp ((condAcc_W g5).mpr (by simp only [Rotor.withSectors]; omega))
    exact ⟨⟨_, W⟩, (evaluate_single _ _ _ _ _).mpr ⟨acc', g5, hW, rfl⟩⟩
  exact ⟨key ns 1 hns le_rfl, key 1 ns le_rfl hns⟩

/-- Lift one, no drag. -/
noncomputable def plainAirfoil : AirfoilI ℝ := ⟨fun _ _ => (1, 0), fun _ _ => 0, fun _ _ => 0, fun _ _ => 0, fun _ _ => 0⟩

/-- A straight three-station blade without wake rotation. -/
noncomputable def plainRotor : Rotor ℝ :=
  { demoRotor with af := fun _ => plainAirfoil, opts := ⟨true, false, false, false⟩ }

/-- A root finder that returns `π/4`. -/
noncomputable def plainBq : RootFinder ℝ := fun _ _ _ => .ok (Real.pi / 4)

theorem plainRotor_axisymmetric : Axisymmetric plainRotor := ⟨rfl, rfl, rfl⟩

theorem plainRotor_evaluate (ns : ℕ) (hns : 1 ≤ ns) : ∃ o, (evaluate plainBq (plainRotor.withSectors ns) [⟨10, 12, 0⟩] true).2 = .ok o := by
  rw [one_sector_succeeds plainRotor_axisymmetric _ _ hns _ (by simp)]
  refine evaluate_conditions_ok _ _ _ _ (by simp) fun c hcm => ?_
  obtain rfl : c = ⟨10, 12, 0⟩ := by simpa using hcm
  obtain ⟨acc, h⟩ := (condAcc_ok_iff plainBq (plainRotor.withSectors 1) ⟨10, 12, 0⟩).mpr fun k _ => by
    obtain ⟨L, hL, -⟩ := distributedAeroLoads_finds plainBq (fun f a b e h => by simp [plainBq] at h)
      (plainRotor.withSectors 1) 10 12 0 (k * (360 / (plainRotor.withSectors 1).nSector)) (by simp [plainRotor, demoRotor, Rotor.withSectors]) rfl (by simp)
    exact ⟨L, hL⟩
  obtain ⟨W, hW⟩ := Option.isSome_iff_exists.mp ((condAcc_W h).mpr (by simp [Rotor.withSectors]))
  exact ⟨⟨_, W⟩, (evaluate_single _ _ _ _ _).mpr ⟨acc, h, hW, rfl⟩⟩

example : ∃ o1 o7 x1 x7, (evaluate plainBq (plainRotor.withSectors 1) [⟨10, 12, 0⟩] true).2 = .ok o1 ∧
    (evaluate plainBq (plainRotor.withSectors 7) [⟨10, 12, 0⟩] true).2 = .ok o7 ∧ o1.conds[0]? = some x1 ∧
    o7.conds[0]? = some x7 ∧ x1.acc.T.val = x7.acc.T.val := by
  obtain ⟨o1, h1⟩ := plainRotor_evaluate 1 (by norm_num)
  obtain ⟨o7, h7⟩ := plainRotor_evaluate 7 (by norm_num)
  have l1 : 0 < o1.conds.length := by rw [evaluate_length h1]; simp
  have l7 : 0 < o7.conds.length := by rw [evaluate_length h7]; simp
  have e1 : o1.conds[0]? = some o1.conds[0] := List.getElem?_eq_getElem l1
  have e7 : o7.conds[0]? = some o7.conds[0] := List.getElem?_eq_getElem l7
  exact ⟨o1, o7, _, _, h1, h7, e1, e7, (one_sector_partial plainRotor_axisymmetric (by norm_num) h1 h7 e1 e7).1⟩

theorem relSpeed_pos (phi a Vx Vy : ℝ) (hc : Real.cos phi ≠ 0) (hV : Vy ≠ 0) : 0 < relSpeed phi a 0 Vx Vy ^ 2 := by
  have h10 : ¬ ((10 : ℝ) < |0|) := by norm_num
  simp only [relSpeed, num_real, Nat.cast_ofNat, if_neg h10, add_zero, mul_one]
  split_ifs
  · have := div_ne_zero hV hc
    positivity
  · rw [Real.sq_sqrt (by positivity)]
    positivity

/-- The normal load is positive at every station. -/
theorem plainRotor_Np {L : LoadsOut ℝ} (hL : (distributedAeroLoads plainBq plainRotor 10 12 0 0).2 = .ok L) (i : ℕ) (hi : i < 3) :
    0 < stationArr L.stations SecLoads.Np i := by
  have h0 : distributedAeroLoads plainBq plainRotor 10 12 0 0 = (_, .ok L) := Prod.ext rfl hL
  obtain ⟨l1, l2⟩ := solveStations_ok (distributedAeroLoads_stations h0)
  obtain ⟨s, hs, -⟩ := l2 i hi
  have hw : rotorWind plainRotor 10 12 (deg2rad 0) i = (10, 12 * Real.pi / 30 * (10 + 20 * i)) := demoRotor_wind 10 12 _ i
  have hVy : (0 : ℝ) < 12 * Real.pi / 30 * (10 + 20 * i) := by have := Real.pi_pos; positivity
  obtain ⟨hq, hNp, -⟩ := distributedAeroLoads_forces plainBq plainRotor _ 10 12 0 0 L h0 i s hs
  obtain ⟨d, h1, h2, h3, -, -⟩ := solveStation_real (loads_station h0 hs).2
  have hphi : s.phi = Real.pi / 4 := by
    simp only [stationPhi, num_real, decide_eq_true_eq, show ¬ ((12 : ℝ) = 0) by norm_num, if_false,
      show ¬ plainRotor.iterRe = 0 by simp [plainRotor, demoRotor], solvePhi, plainBq, Except.ok.injEq, Prod.mk.injEq] at h1
    exact h1.1.symm
  have hW : 0 < s.loads.W ^ 2 ∧ s.loads.cl = 1 ∧ s.loads.cd = 0 := by
    rcases secLoads_ok h3 with ⟨-, -, hl, -⟩ | ⟨h4, -⟩
    · have hap : (runBEM plainRotor (deg2rad 0) s.phi (stationSec plainRotor (rotorWind plainRotor 10 12 (deg2rad 0)) i s.theta)).ap = 0 := rfl
      refine ⟨?_, ?_, ?_⟩
      · rw [hl]
        have h12 : (!((12 : ℝ) == 0)) = true := by simp [num_real]
        simp only [secValues, relativeWind, h12, if_true, hap]
        refine relSpeed_pos _ _ _ _ ?_ ?_
        · rw [hphi]
          exact (Real.cos_pos_of_mem_Ioo ⟨by linarith [Real.pi_pos], by linarith [Real.pi_pos]⟩).ne'
        · simp only [stationSec, hw]
          exact hVy.ne'
      · rw [hl]; simp [secValues, runBEM, bemPasses, bemPass, stationSec, plainRotor, plainAirfoil, demoRotor]
      · rw [hl]; simp [secValues, runBEM, bemPasses, bemPass, stationSec, plainRotor, plainAirfoil, demoRotor]
    · simp only [stationSec, hw] at h4
      rcases h4 with h4 | h4
      · norm_num at h4
      · exact absurd h4 hVy.ne'
  have hch : (0 : ℝ) < plainRotor.chord i := by
    have : (i : ℝ) ≤ 2 := by exact_mod_cast (by omega : i ≤ 2)
    simp only [plainRotor, demoRotor]
    linarith
  have hcos : 0 < Real.cos (Real.pi / 4) := Real.cos_pos_of_mem_Ioo ⟨by linarith [Real.pi_pos], by linarith [Real.pi_pos]⟩
  have hrho : 0 < plainRotor.rho := by norm_num [plainRotor, demoRotor]
  simp only [stationArr, hs, Option.map_some, Option.getD_some]
  rw [hNp, hq, hW.2.1, hW.2.2, hphi]
  have := hW.1
  simp only [one_mul, zero_mul, add_zero]
  positivity

theorem plainRotor_M {L : LoadsOut ℝ} (hL : (distributedAeroLoads plainBq plainRotor 10 12 0 0).2 = .ok L) :
    0 < (bladeInt plainRotor L).M := by
  have h0 := plainRotor_Np hL 0 (by norm_num)
  have h1 := plainRotor_Np hL 1 (by norm_num)
  have h2 := plainRotor_Np hL 2 (by norm_num)
  simp only [bladeInt, thrustTorque, trapz, num_real, show plainRotor.n = 3 from rfl, Finset.sum_range_succ, Finset.sum_range_zero]
  generalize stationArr L.stations SecLoads.Np = Np at h0 h1 h2 ⊢
  simp [padded, defineCurvature, pathLength, segLength, zAz, num_real, plainRotor, demoRotor]
  norm_num
  positivity

/-- **C47** is false for `Y`, `Z`, `My`: a rotor without tilt, yaw and shear whose moment `My` with the one sector that the
constructor chooses is not zero, while it is zero with any larger number of sectors. -/
theorem one_sector_false :
    ∃ (bq : RootFinder ℝ) (R : Rotor ℝ) (c : Cond ℝ), Axisymmetric R ∧ ∀ ns, 2 ≤ ns →
      ∃ o1 on x1 xn, (evaluate bq (R.withSectors 1) [c] true).2 = .ok o1 ∧
        (evaluate bq (R.withSectors ns) [c] true).2 = .ok on ∧ o1.conds = [x1] ∧ on.conds = [xn] ∧
        0 < x1.acc.My.val ∧ xn.acc.My.val = 0 := by
  refine ⟨plainBq, plainRotor, ⟨10, 12, 0⟩, plainRotor_axisymmetric, fun ns hns => ?_⟩
  obtain ⟨o1, h1⟩ := plainRotor_evaluate 1 (by norm_num)
  obtain ⟨on, hn⟩ := plainRotor_evaluate ns (by omega)
  obtain ⟨x1, e1⟩ := List.length_eq_one_iff.mp (evaluate_length h1)
  obtain ⟨xn, en⟩ := List.length_eq_one_iff.mp (evaluate_length hn)
  refine ⟨o1, on, x1, xn, h1, hn, e1, en, ?_, ?_⟩
  · obtain ⟨L, hL, -, -, -, -, -, -, -, g⟩ := plainRotor_axisymmetric.outputs le_rfl h1 (m := 0) (c := ⟨10, 12, 0⟩) rfl (by rw [e1]; rfl)
    rw [g, if_pos rfl]
    have := plainRotor_M hL
    have hB : (0 : ℝ) < plainRotor.B := by norm_num [plainRotor, demoRotor]
    positivity
  · obtain ⟨L, hL, -, -, -, -, -, -, -, g⟩ := plainRotor_axisymmetric.outputs (by omega) hn (m := 0) (c := ⟨10, 12, 0⟩) rfl (by rw [en]; rfl)
    rw [g, if_neg (by omega)]

end Verif
