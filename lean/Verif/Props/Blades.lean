import Verif.Props.Misalign

/-!
# C110: the outputs of the rotor are those of all its blades, averaged over a revolution

`evaluate` follows one blade around the circle and multiplies by the number of blades.  Here the rotor is taken as a whole: at
every position of the first blade the other blades are spaced evenly, each has the loads reported at its own azimuth, and the
sums over the blades are averaged over the positions.
-/

namespace Verif

open Spec Finset

/-- `L k b` are the distributed loads which the rotor reports at the azimuth of blade `b` when the first blade stands in sector
`k` and the others follow at equal distances. -/
def BladeLoads (bq : RootFinder ℝ) (R : Rotor ℝ) (c : Cond ℝ) (L : ℕ → ℕ → LoadsOut ℝ) : Prop :=
  ∀ k < R.nSector, ∀ b < R.B,
    (distributedAeroLoads bq R c.Uinf c.Omega c.pitch (k * (360 / R.nSector) + b * (360 / R.B))).2 = .ok (L k b)

/-- A quantity of a blade at an azimuth (radians), summed over the blades of the rotor and averaged over its positions -/
noncomputable def wholeRotor (R : Rotor ℝ) (L : ℕ → ℕ → LoadsOut ℝ) (g : LoadedBlade → ℝ → ℝ) : ℝ :=
  (∑ k ∈ range R.nSector, ∑ b ∈ range R.B,
    g (loadedBlade R (L k b)) (2 * Real.pi * k / R.nSector + 2 * Real.pi * b / R.B)) / R.nSector

/-- The outputs of one condition are those of the whole rotor. -/
structure WholeRotor (R : Rotor ℝ) (c : Cond ℝ) (L : ℕ → ℕ → LoadsOut ℝ) (x : CondOut ℝ) : Prop where
  T : x.acc.T.val = wholeRotor R L fun b psi => (b.hubForce psi).x
  Q : x.acc.Q.val = wholeRotor R L fun b _ => b.int fun i => b.T i * (b.point i).z
  P : x.P.val = wholeRotor R L (fun b _ => b.int fun i => b.T i * (b.point i).z) * (c.Omega * Real.pi / 30)
  Y : x.acc.Y.val = wholeRotor R L fun b psi =>
    Real.cos psi * b.int b.T - Real.sin psi * b.int fun i => b.N i * Real.sin (b.cone i)
  Z : x.acc.Z.val = wholeRotor R L fun b psi =>
    Real.sin psi * b.int b.T + Real.cos psi * b.int fun i => b.N i * Real.sin (b.cone i)
  My : x.acc.My.val = wholeRotor R L fun b psi => Real.cos psi * b.int fun i => b.N i * (b.point i).z
  Mz : x.acc.Mz.val = wholeRotor R L fun b psi => Real.sin psi * b.int fun i => b.N i * (b.point i).z

/-- A quantity of the blade in a sector; sectors are counted on beyond the full circle. -/
noncomputable def sectorQty (bq : RootFinder ℝ) (R : Rotor ℝ) (c : Cond ℝ) (g : LoadedBlade → ℝ → ℝ) (k : ℕ) : ℝ :=
  match stationsAt bq R c (k * (360 / R.nSector)) with
  | .ok s => g (loadedBlade R ⟨s, [], []⟩) (2 * Real.pi * k / R.nSector)
  | .error _ => 0

theorem sectorQty_of {bq : RootFinder ℝ} {R : Rotor ℝ} {c : Cond ℝ} {k : ℕ} {L : LoadsOut ℝ}
    (h : (distributedAeroLoads bq R c.Uinf c.Omega c.pitch (k * (360 / R.nSector))).2 = .ok L) (g : LoadedBlade → ℝ → ℝ) :
    sectorQty bq R c g k = g (loadedBlade R L) (2 * Real.pi * k / R.nSector) := by
  have : stationsAt bq R c (k * (360 / R.nSector)) = .ok L.stations := by rw [stationsAt, h]; rfl
  simp only [sectorQty, this]
  rfl

theorem sectorQty_periodic (bq : RootFinder ℝ) {R : Rotor ℝ} (hns : R.nSector ≠ 0) (c : Cond ℝ) {g : LoadedBlade → ℝ → ℝ}
    (hg : ∀ b p, g b (p + 2 * Real.pi) = g b p) (k : ℕ) : sectorQty bq R c g (k + R.nSector) = sectorQty bq R c g k := by
  have hn : (R.nSector : ℝ) ≠ 0 := by exact_mod_cast hns
  simp only [sectorQty, stationsAt_sector bq hns,
    show 2 * Real.pi * ((k + R.nSector : ℕ) : ℝ) / R.nSector = 2 * Real.pi * k / R.nSector + 2 * Real.pi by
      push_cast; field_simp, hg]

/-- The sum over blades and positions is the sum over the positions of one blade, as often as there are blades. -/
theorem blades_sum {bq : RootFinder ℝ} {R : Rotor ℝ} {c : Cond ℝ} (hns : R.nSector ≠ 0) (hB : R.B ∣ R.nSector)
    {L : ℕ → ℕ → LoadsOut ℝ} (hL : BladeLoads bq R c L) {L' : ℕ → LoadsOut ℝ} (hL' : SectorLoads bq R c L')
    {g : LoadedBlade → ℝ → ℝ} (hg : ∀ b p, g b (p + 2 * Real.pi) = g b p) :
    wholeRotor R L g = R.B * sectorMean R fun k => g (loadedBlade R (L' k)) (sectorPsi R k) := by
  obtain ⟨q, hq⟩ := hB
  have hB0 : R.B ≠ 0 := fun h => hns (by rw [hq, h, zero_mul])
  have hq0 : q ≠ 0 := fun h => hns (by rw [hq, h, mul_zero])
  have hn : (R.nSector : ℝ) = R.B * q := by exact_mod_cast hq
  have hb' : (R.B : ℝ) ≠ 0 := by exact_mod_cast hB0
  have hq' : (q : ℝ) ≠ 0 := by exact_mod_cast hq0
  have e : ∀ k < R.nSector, ∀ b < R.B, g (loadedBlade R (L k b)) (2 * Real.pi * k / R.nSector + 2 * Real.pi * b / R.B) =
      sectorQty bq R c g (k + b * q) := by
    intro k hk b hb
    have az : (k : ℝ) * (360 / R.nSector) + b * (360 / R.B) = ((k + b * q : ℕ) : ℝ) * (360 / R.nSector) := by
      rw [hn]; push_cast; field_simp
    have := hL k hk b hb
    rw [az] at this
    rw [sectorQty_of this]
    congr 1
    rw [hn]; push_cast; field_simp
  have e' : ∀ k < R.nSector, g (loadedBlade R (L' k)) (sectorPsi R k) = sectorQty bq R c g k :=
    fun k hk => (sectorQty_of (hL' k hk) g).symm
  simp only [wholeRotor, sectorMean]
  rw [sum_congr rfl fun k hk => sum_congr rfl fun b hb => e k (mem_range.mp hk) b (mem_range.mp hb),
    sum_congr rfl fun k hk => e' k (mem_range.mp hk), sum_comm]
  have hs : ∀ b, ∑ k ∈ range R.nSector, sectorQty bq R c g (k + b * q) = ∑ k ∈ range R.nSector, sectorQty bq R c g k :=
    fun b => sum_shift (sectorQty_periodic bq hns c hg) (b * q)
  simp only [hs, sum_const, card_range, nsmul_eq_mul, mul_div_assoc]

/-- Loads exist at the azimuths of all blades. -/
theorem blades_exist {bq : RootFinder ℝ} {R : Rotor ℝ} {c : Cond ℝ} (hns : R.nSector ≠ 0) (hB : R.B ∣ R.nSector)
    {L' : ℕ → LoadsOut ℝ} (hL' : SectorLoads bq R c L') : ∃ L, BladeLoads bq R c L := by
  obtain ⟨q, hq⟩ := hB
  have hex : ∀ k b, ∃ l, k < R.nSector → b < R.B →
      (distributedAeroLoads bq R c.Uinf c.Omega c.pitch (k * (360 / R.nSector) + b * (360 / R.B))).2 = .ok l := by
    intro k b
    by_cases hb : b < R.B
    swap
    · exact ⟨⟨[], [], []⟩, fun _ h => absurd h hb⟩
    have hn : (R.nSector : ℝ) = R.B * q := by exact_mod_cast hq
    have hb' : (R.B : ℝ) ≠ 0 := by exact_mod_cast (show R.B ≠ 0 by omega)
    have hq' : (q : ℝ) ≠ 0 := by
      intro h
      rw [h, mul_zero] at hn
      exact hns (by exact_mod_cast hn)
    have az : (k : ℝ) * (360 / R.nSector) + b * (360 / R.B) = ((k + b * q : ℕ) : ℝ) * (360 / R.nSector) := by
      rw [hn]; push_cast; field_simp
    have per : Function.Periodic (fun k : ℕ => stationsAt bq R c (k * (360 / R.nSector))) R.nSector :=
      fun k => stationsAt_sector bq hns c k
    have h1 := per.map_mod_nat (k + b * q)
    have h2 := hL' ((k + b * q) % R.nSector) (Nat.mod_lt _ (Nat.pos_of_ne_zero hns))
    have h3 : stationsAt bq R c (k * (360 / R.nSector) + b * (360 / R.B)) =
        .ok (L' ((k + b * q) % R.nSector)).stations := by
      rw [az]
      refine h1.symm.trans ?_
      simp only [stationsAt, h2]
      rfl
    simp only [stationsAt] at h3
    cases h4 : (distributedAeroLoads bq R c.Uinf c.Omega c.pitch (k * (360 / R.nSector) + b * (360 / R.B))).2 with
    | error e => rw [h4] at h3; cases h3
    | ok l => exact ⟨l, fun _ _ => rfl⟩
  choose L hL using hex
  exact ⟨L, fun k hk b hb => hL k b hk hb⟩

/-- **C110** (partial) When the number of sectors is a multiple of the number of blades, the outputs of the rotor are those of all
its blades, averaged over the positions of the rotor. -/
theorem whole_rotor_partial {bq : RootFinder ℝ} {R : Rotor ℝ} {cs : List (Cond ℝ)} {co : Bool} {o : EvalOut ℝ}
    (h : (evaluate bq R cs co).2 = .ok o) {m : ℕ} {c : Cond ℝ} {x : CondOut ℝ} (hc : cs[m]? = some c)
    (hx : o.conds[m]? = some x) (hB : R.B ∣ R.nSector) :
    (∃ L, BladeLoads bq R c L) ∧ ∀ L, BladeLoads bq R c L → WholeRotor R c L x := by
  obtain ⟨L', hL', -⟩ := sector_averages h hc hx
  have hSL : SectorLoads bq R c L' := hL'
  have hns : R.nSector ≠ 0 := by
    intro h0
    have hm : m < cs.length := by rw [← evaluate_length h]; exact (List.getElem?_eq_some_iff.mp hx).1
    obtain ⟨o1, g1, -⟩ := (List.forall₂_iff_get.mp (evaluate_conditions bq R cs co o h)).2 m hm (List.getElem?_eq_some_iff.mp hx).1
    obtain ⟨a, ha, hW, -⟩ := (evaluate_single bq R _ co o1).mp g1
    exact (condAcc_W ha).mp (by rw [hW]; rfl) h0
  refine ⟨blades_exist hns hB hSL, fun L hL => ?_⟩
  obtain ⟨-, e2, e3, e4, e5, e6⟩ := hub_outputs h hc hx L' hSL
  have c1 : ∀ p : ℝ, Real.cos (p + 2 * Real.pi) = Real.cos p := Real.cos_add_two_pi
  have s1 : ∀ p : ℝ, Real.sin (p + 2 * Real.pi) = Real.sin p := Real.sin_add_two_pi
  have hs := fun {g} hg => blades_sum hns hB hL hSL (g := g) hg
  have hQ : x.acc.Q.val = wholeRotor R L fun b _ => b.int fun i => b.T i * (b.point i).z := by
    rw [e2, hs fun _ _ => rfl]
  refine ⟨?_, hQ, ?_, ?_, ?_, ?_, ?_⟩
  · rw [hub_thrust h hc hx L' hSL, hs fun b p => by simp only [LoadedBlade.hubForce, hub_comp]]
  · rw [← hQ, (evaluate_entry h hc hx).2.1]
    simp only [power, num_real]
    push_cast
    ring
  · rw [e3, hs fun b p => by simp only [c1, s1]]
  · rw [e4, hs fun b p => by simp only [c1, s1]]
  · rw [e5, hs fun b p => by simp only [c1]]
  · rw [e6, hs fun b p => by simp only [s1]]

/-- A rotor with three blades, six sectors and yaw -/
example {bq : RootFinder ℝ} (hbq : OnlyValueError bq) : ∃ R o y, { demoArgs with yaw := 20, B := 3, nSector := 6 }.build = .ok R ∧
    (evaluate bq R [⟨10, 12, 0⟩] true).2 = .ok o ∧ o.conds[0]? = some y ∧ ∃ L, BladeLoads bq R ⟨10, 12, 0⟩ L ∧
      WholeRotor R ⟨10, 12, 0⟩ L y := by
  obtain ⟨R, hR⟩ := build_total { demoArgs with yaw := 20, B := 3, nSector := 6 } (by simp [demoArgs])
  have hd := build_data hR
  have hns : R.nSector = 6 := by
    have hy : deg2rad (20 : ℝ) ≠ 0 := by rw [real_deg2rad]; positivity
    rw [(build_fields hR).1]
    simp [hy]
  obtain ⟨o, y, g1, g2, -⟩ := evaluate_total hbq R ⟨10, 12, 0⟩ true (by rw [hd.2.2.2.2.2.1]; simp [demoArgs])
      (by rw [hd.2.2.2.2.2.2.1]; simp [demoArgs]) (by norm_num) (by omega)
  have hy : o.conds[0]? = some y := by rw [g2]; rfl
  have hB : R.B = 3 := hd.2.2.2.2.1
  obtain ⟨⟨L, hL⟩, hw⟩ := whole_rotor_partial g1 rfl hy ⟨2, by rw [hns, hB]⟩
  exact ⟨R, o, y, hR, g1, hy, L, hL, hw L hL⟩

/-! ## No tilt, yaw and shear -/

theorem stationsAt_axisymmetric (bq : RootFinder ℝ) {R : Rotor ℝ} (hR : Axisymmetric R) (c : Cond ℝ) (az az' : ℝ) :
    stationsAt bq R c az = stationsAt bq R c az' := by
  rw [stationsAt_eq, stationsAt_eq]
  have : rotorWind R c.Uinf c.Omega (deg2rad az) = rotorWind R c.Uinf c.Omega (deg2rad az') := by
    funext i
    unfold rotorWind
    rw [hR.tilt, hR.yaw, hR.shear]
    exact windComponents_azimuth_symmetric ..
  rw [this]

theorem blades_axisymmetric {bq : RootFinder ℝ} {R : Rotor ℝ} (hR : Axisymmetric R) {c : Cond ℝ} {L : ℕ → ℕ → LoadsOut ℝ}
    (hL : BladeLoads bq R c L) {L' : ℕ → LoadsOut ℝ} (hL' : SectorLoads bq R c L') {k k' b : ℕ} (hk : k < R.nSector)
    (hk' : k' < R.nSector) (hb : b < R.B) : loadedBlade R (L k b) = loadedBlade R (L' k') := by
  have h1 : stationsAt bq R c (k * (360 / R.nSector) + b * (360 / R.B)) = .ok (L k b).stations := by
    rw [stationsAt, hL k hk b hb]; rfl
  have h2 : stationsAt bq R c (k' * (360 / R.nSector)) = .ok (L' k').stations := by rw [stationsAt, hL' k' hk']; rfl
  rw [stationsAt_axisymmetric bq hR c _ (k' * (360 / R.nSector)), h2] at h1
  simp only [loadedBlade, Except.ok.inj h1]

/-- **C110** (partial) Without tilt, yaw and shear the thrust, torque and power are those of all the blades for any number of
blades and sectors. -/
theorem whole_rotor_axisymmetric_partial {bq : RootFinder ℝ} {R : Rotor ℝ} (hR : Axisymmetric R) {cs : List (Cond ℝ)} {co : Bool}
    {o : EvalOut ℝ} (h : (evaluate bq R cs co).2 = .ok o) {m : ℕ} {c : Cond ℝ} {x : CondOut ℝ} (hc : cs[m]? = some c)
    (hx : o.conds[m]? = some x) : (∃ L, BladeLoads bq R c L) ∧ ∀ L, BladeLoads bq R c L →
      x.acc.T.val = wholeRotor R L (fun b psi => (b.hubForce psi).x) ∧
      x.acc.Q.val = wholeRotor R L (fun b _ => b.int fun i => b.T i * (b.point i).z) ∧
      x.P.val = wholeRotor R L (fun b _ => b.int fun i => b.T i * (b.point i).z) * (c.Omega * Real.pi / 30) := by
  obtain ⟨L', hL', -⟩ := sector_averages h hc hx
  have hSL : SectorLoads bq R c L' := hL'
  constructor
  · have hex : ∀ k b : ℕ, ∃ l, k < R.nSector →
        (distributedAeroLoads bq R c.Uinf c.Omega c.pitch (k * (360 / R.nSector) + b * (360 / R.B))).2 = .ok l := by
      intro k b
      by_cases hk : k < R.nSector
      swap
      · exact ⟨⟨[], [], []⟩, fun h => absurd h hk⟩
      have h3 : stationsAt bq R c (k * (360 / R.nSector) + b * (360 / R.B)) = .ok (L' k).stations := by
        rw [stationsAt_axisymmetric bq hR c _ (k * (360 / R.nSector)), stationsAt, hSL k hk]; rfl
      simp only [stationsAt] at h3
      cases h4 : (distributedAeroLoads bq R c.Uinf c.Omega c.pitch (k * (360 / R.nSector) + b * (360 / R.B))).2 with
      | error e => rw [h4] at h3; cases h3
      | ok l => exact ⟨l, fun _ => rfl⟩
    choose L hL using hex
    exact ⟨L, fun k hk b _ => hL k b hk⟩
  · intro L hL
    have hs : ∀ f : LoadedBlade → ℝ, wholeRotor R L (fun b _ => f b) = R.B * sectorMean R fun k => f (loadedBlade R (L' k)) := by
      intro f
      simp only [wholeRotor, sectorMean, ← mul_div_assoc, mul_sum]
      congr 1
      refine sum_congr rfl fun k hk => ?_
      rw [sum_congr rfl fun b hb => by
        rw [blades_axisymmetric hR hL hSL (mem_range.mp hk) (mem_range.mp hk) (mem_range.mp hb)]]
      simp
    have hQ : x.acc.Q.val = wholeRotor R L fun b _ => b.int fun i => b.T i * (b.point i).z := by
      rw [(hub_outputs h hc hx L' hSL).2.1, hs]
    refine ⟨?_, hQ, ?_⟩
    · rw [hub_thrust h hc hx L' hSL]
      simp only [LoadedBlade.hubForce, hub_comp]
      rw [hs fun b => (b.int3 b.force).x]
    · rw [← hQ, (evaluate_entry h hc hx).2.1]
      simp only [power, num_real]
      push_cast
      ring

/-- The lateral forces and moments of two or more blades cancel at every position of the rotor. -/
theorem lateral_cancel {bq : RootFinder ℝ} {R : Rotor ℝ} (hR : Axisymmetric R) (hB : 2 ≤ R.B) {c : Cond ℝ}
    {L : ℕ → ℕ → LoadsOut ℝ} (hL : BladeLoads bq R c L) {L' : ℕ → LoadsOut ℝ} (hL' : SectorLoads bq R c L') (u v : LoadedBlade → ℝ) :
    wholeRotor R L (fun b psi => Real.cos psi * u b + Real.sin psi * v b) = 0 := by
  obtain ⟨hcs, hsn⟩ := sum_cos_sin R.B hB
  rw [wholeRotor, sum_eq_zero, zero_div]
  intro k hk
  rw [sum_congr rfl fun b hb => by
    rw [blades_axisymmetric hR hL hL' (mem_range.mp hk) (mem_range.mp hk) (mem_range.mp hb)]]
  generalize u (loadedBlade R (L' k)) = U
  generalize v (loadedBlade R (L' k)) = V
  generalize 2 * Real.pi * k / (R.nSector : ℝ) = p
  have : ∀ b : ℕ, Real.cos (p + 2 * Real.pi * b / R.B) * U + Real.sin (p + 2 * Real.pi * b / R.B) * V =
      (Real.cos p * U + Real.sin p * V) * Real.cos (2 * Real.pi * b / R.B) +
        (Real.cos p * V - Real.sin p * U) * Real.sin (2 * Real.pi * b / R.B) := fun b => by
    rw [Real.cos_add, Real.sin_add]; ring
  simp only [this, sum_add_distrib, ← mul_sum, hcs, hsn, mul_zero, add_zero]

/-- **C110** (fails) A rotor with three blades without tilt, yaw and shear, with the one sector which the constructor chooses: the
moments of the blades about the lateral axis cancel, the rotor reports a positive one. -/
theorem whole_rotor_lateral_false : ∃ (bq : RootFinder ℝ) (R : Rotor ℝ) (c : Cond ℝ) (o : EvalOut ℝ) (x : CondOut ℝ)
    (L : ℕ → ℕ → LoadsOut ℝ), Axisymmetric R ∧ R.B = 3 ∧ R.nSector = 1 ∧ (evaluate bq R [c] true).2 = .ok o ∧ o.conds = [x] ∧
      BladeLoads bq R c L ∧ 0 < x.acc.My.val ∧
      wholeRotor R L (fun b psi => Real.cos psi * b.int fun i => b.N i * (b.point i).z) = 0 := by
  obtain ⟨o, h⟩ := plainRotor_evaluate 1 (by norm_num)
  obtain ⟨x, e⟩ := List.length_eq_one_iff.mp (evaluate_length h)
  have hA : Axisymmetric (plainRotor.withSectors 1) := ⟨rfl, rfl, rfl⟩
  have hx : o.conds[0]? = some x := by rw [e]; rfl
  obtain ⟨⟨L, hL⟩, -⟩ := whole_rotor_axisymmetric_partial hA h (m := 0) (c := ⟨10, 12, 0⟩) rfl hx
  obtain ⟨L', hL', -⟩ := sector_averages h (m := 0) (c := ⟨10, 12, 0⟩) rfl hx
  refine ⟨_, _, _, o, x, L, hA, rfl, rfl, h, e, hL, ?_, ?_⟩
  · obtain ⟨L, hL, -, -, -, -, -, -, -, g⟩ := plainRotor_axisymmetric.outputs le_rfl h (m := 0) (c := ⟨10, 12, 0⟩) rfl hx
    rw [g, if_pos rfl]
    have := plainRotor_M hL
    have hB : (0 : ℝ) < plainRotor.B := by norm_num [plainRotor, demoRotor]
    positivity
  · have := lateral_cancel hA (by norm_num [Rotor.withSectors, plainRotor, demoRotor]) hL hL'
      (fun b => b.int fun i => b.N i * (b.point i).z) (fun _ => 0)
    simpa only [mul_zero, add_zero] using this

/-! ## Three blades and eight sectors -/

/-- An airfoil with drag from a Reynolds number on -/
noncomputable def lateCrisis : AirfoilI ℝ where
  evaluate _ Re := (0, if 99 / 100 ≤ Re then 1 else 0)
  dclda _ _ := 0
  dcldRe _ _ := 0
  dcdda _ _ := 0
  dcddRe _ _ := 0

/-- A rotor tilted and yawed by 45 degrees, with three blades and eight sectors -/
noncomputable def threeBlades : Rotor ℝ := { crisisRotor (Real.pi / 4) (Real.pi / 4) 8 with B := 3, af := fun _ => lateCrisis }

/-- Loads at standstill at any azimuth: none below the critical speed, a positive normal load above. -/
theorem three_loads (bq : RootFinder ℝ) (az : ℝ) : ∃ L, (distributedAeroLoads bq threeBlades 1 0 0 az).2 = .ok L ∧ ∀ i < 2,
    let psi := az * (Real.pi / 180)
    let Vy := 1 / 2 * Real.sin psi - Real.sqrt 2 / 2 * Real.cos psi
    0 ≤ stationArr L.stations SecLoads.Np i ∧
    (1 / 4 + Vy ^ 2 < (99 / 100) ^ 2 → stationArr L.stations SecLoads.Np i = 0) ∧
    (Vy ≠ 0 → (99 / 100) ^ 2 ≤ 1 / 4 + Vy ^ 2 → 0 < stationArr L.stations SecLoads.Np i) := by
  obtain ⟨L, hL, hlen, -⟩ := distributedAeroLoads_standstill bq threeBlades 1 0 0 az rfl (by simp) (fun x => by simp [num_real])
  refine ⟨L, hL, fun i hi => ?_⟩
  intro psi Vy
  have hs := List.getElem?_eq_getElem (show i < L.stations.length by rw [hlen]; exact hi)
  generalize L.stations[i]'(by rw [hlen]; exact hi) = s at hs
  have hq : Real.sqrt 2 ^ 2 = 2 := Real.sq_sqrt (by norm_num)
  have hV : rotorWind threeBlades 1 0 psi i = (1 / 2, Vy) := by
    have := crisis_wind (Real.pi / 4) (Real.pi / 4) psi 8 hi
    rw [Real.cos_pi_div_four, Real.sin_pi_div_four,
      show Real.sqrt 2 / 2 * (Real.sqrt 2 / 2) = 1 / 2 by nlinarith] at this
    exact this
  have e1 : stationArr L.stations SecLoads.Np i = s.loads.Np := by simp [stationArr, hs]
  obtain ⟨g1, g2⟩ := parked_rotor_iff bq threeBlades _ 1 0 _ L (Prod.ext rfl hL) i s hs (1 / 2) Vy 0
    (if 99 / 100 ≤ Real.sqrt ((1 / 2) ^ 2 + Vy ^ 2) then 1 else 0) hV
    (by simp [threeBlades, crisisRotor, lateCrisis, parkedRotor])
  have ev : threeBlades.rho * ((1 / 2) ^ 2 + Vy ^ 2) / 2 * threeBlades.chord i = (1 / 4 + Vy ^ 2) / 2 := by
    simp only [threeBlades, crisisRotor, parkedRotor]
    ring
  rw [ev] at g1
  rw [e1]
  have hle : 99 / 100 ≤ Real.sqrt ((1 / 2) ^ 2 + Vy ^ 2) ↔ (99 / 100) ^ 2 ≤ 1 / 4 + Vy ^ 2 := by
    rw [Real.le_sqrt' (by norm_num)]
    norm_num
  by_cases hy : Vy ≠ 0
  · have hN := (g1.mpr (.inl ⟨by norm_num, hy⟩)).1
    rw [hN]
    refine ⟨?_, fun hlt => ?_, fun _ hge => ?_⟩
    · split_ifs <;> positivity
    · rw [if_neg (by rw [hle]; linarith), mul_zero]
    · rw [if_pos (hle.mpr hge)]
      nlinarith
  · have hN := (g2 fun h => hy h.2).1
    rw [hN]
    exact ⟨le_rfl, fun _ => rfl, fun h => absurd h hy⟩

/-- Thrust of one blade -/
theorem three_thrust : ∃ u v : ℝ, 0 < u ∧ 0 < v ∧ ∀ (L : LoadsOut ℝ) (psi : ℝ), ((loadedBlade threeBlades L).hubForce psi).x =
    u * stationArr L.stations SecLoads.Np 0 + v * stationArr L.stations SecLoads.Np 1 := by
  obtain ⟨u, v, hu, hv, hI⟩ := parked_weights 0 0
  refine ⟨u, v, hu, hv, fun L psi => ?_⟩
  simp only [LoadedBlade.hubForce, hub_comp, LoadedBlade.int3, force_comp]
  have hb : loadedBlade threeBlades L = loadedBlade (parkedRotor 0 0) L := rfl
  have hc := fun {i} (hi : i < 4) => (parked_flat 0).cone L (i := i) hi
  rw [hb, hI _ _ (by simp [loadedBlade, padded]) (by simp [loadedBlade, padded, parkedRotor]), hc (by norm_num), hc (by norm_num),
    Real.cos_zero]
  simp [loadedBlade, padded, parkedRotor]

/-- **C110** (fails) A rotor with three blades and eight sectors (the default), tilted and yawed: no thrust is reported although the
blades of the rotor have one on average over its positions. -/
theorem whole_rotor_false (bq : RootFinder ℝ) : ∃ (R : Rotor ℝ) (c : Cond ℝ) (o : EvalOut ℝ) (x : CondOut ℝ)
    (L : ℕ → ℕ → LoadsOut ℝ), R.B = 3 ∧ R.nSector = 8 ∧ (evaluate bq R [c] false).2 = .ok o ∧ o.conds = [x] ∧
      BladeLoads bq R c L ∧ x.acc.T.val = 0 ∧ 0 < wholeRotor R L (fun b psi => (b.hubForce psi).x) := by
  choose L hL hN using three_loads bq
  have hn : threeBlades.nSector = 8 := rfl
  have hB : threeBlades.B = 3 := rfl
  have hSL : SectorLoads bq threeBlades ⟨1, 0, 0⟩ fun k => L (k * (360 / threeBlades.nSector)) := fun k _ => hL _
  have hBL : BladeLoads bq threeBlades ⟨1, 0, 0⟩ fun k b => L (k * (360 / threeBlades.nSector) + b * (360 / threeBlades.B)) :=
    fun k _ b _ => hL _
  obtain ⟨a, ha⟩ := (condAcc_ok_iff bq threeBlades ⟨1, 0, 0⟩).mpr fun k _ => ⟨_, hL _⟩
  obtain ⟨W, hW⟩ := Option.isSome_iff_exists.mp ((condAcc_W ha).mpr (by rw [hn]; norm_num))
  have h1 := (evaluate_single bq threeBlades ⟨1, 0, 0⟩ false ⟨_, W⟩).mpr ⟨a, ha, hW, rfl⟩
  obtain ⟨u, v, hu, hv, hT⟩ := three_thrust
  have hq : Real.sqrt 2 ^ 2 = 2 := Real.sq_sqrt (by norm_num)
  have hq0 : 0 < Real.sqrt 2 := by positivity
  have hq1 : Real.sqrt 2 < 1.415 := by rw [Real.sqrt_lt' (by norm_num)]; norm_num
  refine ⟨threeBlades, ⟨1, 0, 0⟩, _, _, _, hB, hn, h1, rfl, hBL, ?_, ?_⟩
  · rw [hub_thrust (m := 0) h1 rfl rfl _ hSL]
    simp only [hT]
    rw [sectorMean, sum_eq_zero, zero_div, mul_zero]
    intro k hk
    have hz : ∀ i < 2, stationArr (L (k * (360 / threeBlades.nSector))).stations SecLoads.Np i = 0 := by
      intro i hi
      refine (hN _ i hi).2.1 ?_
      rw [hn, show (k : ℝ) * (360 / (8 : ℕ)) * (Real.pi / 180) = k * (Real.pi / 4) by push_cast; ring]
      have hk : k < 8 := mem_range.mp hk
      interval_cases k
      · simp only [Nat.cast_zero, zero_mul, Real.sin_zero, Real.cos_zero]; nlinarith
      · simp only [Nat.cast_one, one_mul, Real.sin_pi_div_four, Real.cos_pi_div_four]; nlinarith
      · rw [show ((2 : ℕ) : ℝ) * (Real.pi / 4) = Real.pi / 2 by push_cast; ring, Real.sin_pi_div_two, Real.cos_pi_div_two]; nlinarith
      · rw [show ((3 : ℕ) : ℝ) * (Real.pi / 4) = Real.pi - Real.pi / 4 by push_cast; ring, Real.sin_pi_sub, Real.cos_pi_sub,
          Real.sin_pi_div_four, Real.cos_pi_div_four]; nlinarith
      · rw [show ((4 : ℕ) : ℝ) * (Real.pi / 4) = Real.pi by push_cast; ring, Real.sin_pi, Real.cos_pi]; nlinarith
      · rw [show ((5 : ℕ) : ℝ) * (Real.pi / 4) = Real.pi / 4 + Real.pi by push_cast; ring, Real.sin_add_pi, Real.cos_add_pi,
          Real.sin_pi_div_four, Real.cos_pi_div_four]; nlinarith
      · rw [show ((6 : ℕ) : ℝ) * (Real.pi / 4) = Real.pi / 2 + Real.pi by push_cast; ring, Real.sin_add_pi, Real.cos_add_pi,
          Real.sin_pi_div_two, Real.cos_pi_div_two]; nlinarith
      · rw [show ((7 : ℕ) : ℝ) * (Real.pi / 4) = 2 * Real.pi - Real.pi / 4 by push_cast; ring, Real.sin_two_pi_sub, Real.cos_two_pi_sub,
          Real.sin_pi_div_four, Real.cos_pi_div_four]; nlinarith
    rw [hz 0 (by norm_num), hz 1 (by norm_num), mul_zero, mul_zero, add_zero]
  · simp only [wholeRotor, hT]
    refine div_pos (sum_pos' (fun k _ => sum_nonneg fun b _ => ?_) ⟨6, mem_range.mpr (by rw [hn]; norm_num),
      sum_pos' (fun b _ => ?_) ⟨2, mem_range.mpr (by rw [hB]; norm_num), ?_⟩⟩) (by rw [hn]; norm_num)
    · exact add_nonneg (mul_nonneg hu.le (hN _ 0 (by norm_num)).1) (mul_nonneg hv.le (hN _ 1 (by norm_num)).1)
    · exact add_nonneg (mul_nonneg hu.le (hN _ 0 (by norm_num)).1) (mul_nonneg hv.le (hN _ 1 (by norm_num)).1)
    · have h3 : Real.sqrt 3 ^ 2 = 3 := Real.sq_sqrt (by norm_num)
      have h3' : 1.732 < Real.sqrt 3 := by rw [Real.lt_sqrt (by norm_num)]; norm_num
      have hq2 : 1.414 < Real.sqrt 2 := by rw [Real.lt_sqrt (by norm_num)]; norm_num
      have hp : 2.449 < Real.sqrt 2 * Real.sqrt 3 := by nlinarith
      have hpos : ∀ i < 2, 0 < stationArr (L ((6 : ℕ) * (360 / threeBlades.nSector) + (2 : ℕ) * (360 / threeBlades.B))).stations
          SecLoads.Np i := by
        intro i hi
        have := (hN (((6 : ℕ) : ℝ) * (360 / threeBlades.nSector) + (2 : ℕ) * (360 / threeBlades.B)) i hi).2.2
        rw [hn, hB, show (((6 : ℕ) : ℝ) * (360 / (8 : ℕ)) + (2 : ℕ) * (360 / (3 : ℕ))) * (Real.pi / 180) =
          (Real.pi - Real.pi / 6) + 2 * Real.pi by push_cast; ring, Real.sin_add_two_pi, Real.cos_add_two_pi, Real.sin_pi_sub,
          Real.cos_pi_sub, Real.sin_pi_div_six, Real.cos_pi_div_six] at this
        rw [hn, hB]
        refine this ?_ ?_
        · have : 0 < 1 / 2 * (1 / 2) - Real.sqrt 2 / 2 * -(Real.sqrt 3 / 2) := by nlinarith
          exact this.ne'
        · nlinarith
      exact add_pos (mul_pos hu (hpos 0 (by norm_num))) (mul_pos hv (hpos 1 (by norm_num)))

end Verif
