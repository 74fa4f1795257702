import Verif.Props.Resultant
import Verif.Props.Geometry
import Verif.Props.Constructor
import Verif.Lemmas.Component
import Verif.Props.Twist

/-!
# C107: without shear only the angle between wind and shaft matters
-/

namespace Verif

open Spec Finset

/-- Direction of the wind in the hub frame of a rotor with the given tilt and yaw -/
noncomputable def windDirection (tilt yaw : ℝ) : V3 := toTurnedFrame .ey tilt (toTurnedFrame .ez yaw .ex)

/-- The rotor `R'` is `R` with another tilt and yaw, such that its shaft sees the wind from a direction turned by `d` about the
shaft; there is no shear.  (What earlier calls stored does not matter.) -/
def WindTurned (d : ℝ) (R R' : Rotor ℝ) : Prop :=
  ∃ t y p s, R' = { R with tilt := t, yaw := y, pitch := p, saved := s } ∧ R.shearExp = 0 ∧
    windDirection t y = fromTurnedFrame .ex d (windDirection R.tilt R.yaw)

theorem windDirection_comp (t y : ℝ) :
    windDirection t y = ⟨Real.cos y * Real.cos t, -Real.sin y, Real.cos y * Real.sin t⟩ := by
  simp only [windDirection]
  conv_unfold
  simp only [V3.mk.injEq]
  refine ⟨?_, ?_, ?_⟩ <;> simp <;> ring

/-- The wind at the stations -/
theorem rotorWind_turned {d : ℝ} {R R' : Rotor ℝ} (h : WindTurned d R R') (U Om az : ℝ) :
    rotorWind R' U Om (az + d) = rotorWind R U Om az := by
  obtain ⟨t, y, p, s, rfl, hs, hw⟩ := h
  rw [windDirection_comp, windDirection_comp, hub_comp, V3.mk.injEq] at hw
  obtain ⟨h1, h2, h3⟩ := hw
  funext i
  simp only [rotorWind, windComponents, shearedWind, num_real, hs, Real.rpow_zero]
  generalize (defineCurvature R.n R.r R.precurve R.presweep R.precone).cone i = cone
  have hq := Real.sin_sq_add_cos_sq d
  have k1 : Real.cos y * Real.sin t * Real.cos (az + d) + Real.sin y * Real.sin (az + d) =
      Real.cos R.yaw * Real.sin R.tilt * Real.cos az + Real.sin R.yaw * Real.sin az := by
    rw [Real.cos_add, Real.sin_add]
    linear_combination (Real.cos az * Real.cos d - Real.sin az * Real.sin d) * h3 -
      (Real.sin az * Real.cos d + Real.cos az * Real.sin d) * h2 +
      (Real.cos R.yaw * Real.sin R.tilt * Real.cos az + Real.sin R.yaw * Real.sin az) * hq
  have k2 : Real.cos y * Real.sin t * Real.sin (az + d) - Real.sin y * Real.cos (az + d) =
      Real.cos R.yaw * Real.sin R.tilt * Real.sin az - Real.sin R.yaw * Real.cos az := by
    rw [Real.cos_add, Real.sin_add]
    linear_combination (Real.sin az * Real.cos d + Real.cos az * Real.sin d) * h3 +
      (Real.cos az * Real.cos d - Real.sin az * Real.sin d) * h2 +
      (Real.cos R.yaw * Real.sin R.tilt * Real.sin az - Real.sin R.yaw * Real.cos az) * hq
  rw [k1, k2, h1]

/-- The stations of a call, or its exception -/
noncomputable def stationsAt (bq : RootFinder ℝ) (R : Rotor ℝ) (c : Cond ℝ) (az : ℝ) : Except PyErr (List (Station ℝ)) :=
  (distributedAeroLoads bq R c.Uinf c.Omega c.pitch az).2.map LoadsOut.stations

theorem stationsAt_eq (bq : RootFinder ℝ) (R : Rotor ℝ) (c : Cond ℝ) (az : ℝ) :
    stationsAt bq R c az =
      solveStations bq R (deg2rad c.pitch) c.Omega (rotorWind R c.Uinf c.Omega (deg2rad az)) R.n := by
  simp only [stationsAt]
  cases h : (distributedAeroLoads bq R c.Uinf c.Omega c.pitch az).2 with
  | error e => exact (distributedAeroLoads_error h).symm
  | ok L => exact (distributedAeroLoads_stations (Prod.ext rfl h)).symm

/-- **C107** Station by station the rotor in the turned wind has, at an azimuth larger by the angle of the turn, the same inflow
angles, induction factors, coefficients and loads (or raises the same exception). -/
theorem loads_wind_turned (bq : RootFinder ℝ) {d : ℝ} {R R' : Rotor ℝ} (h : WindTurned (d * (Real.pi / 180)) R R') (c : Cond ℝ)
    (az : ℝ) :
    (distributedAeroLoads bq R' c.Uinf c.Omega c.pitch (az + d)).2.map LoadsOut.stations =
      (distributedAeroLoads bq R c.Uinf c.Omega c.pitch az).2.map LoadsOut.stations := by
  have hw := rotorWind_turned h c.Uinf c.Omega (deg2rad az)
  have hd : deg2rad (az + d) = deg2rad az + d * (Real.pi / 180) := by
    simp only [deg2rad, num_real]
    push_cast
    ring
  rw [← hd] at hw
  have e1 := stationsAt_eq bq R' c (az + d)
  have e2 := stationsAt_eq bq R c az
  rw [hw] at e1
  simp only [stationsAt] at e1 e2
  rw [e1, e2]
  obtain ⟨t, y, p, s, rfl, -, -⟩ := h
  refine solveStations_congr fun i _ => ?_
  exact SameCore.solveStation (S := { R with tilt := t, yaw := y, pitch := p, saved := s }) (R := R)
    ⟨rfl, rfl, rfl, rfl, rfl, rfl, rfl, rfl⟩ bq _ _ _ i rfl rfl rfl rfl fun _ => rfl

/-- Stations after a full turn -/
theorem stationsAt_periodic (bq : RootFinder ℝ) (R : Rotor ℝ) (c : Cond ℝ) (az : ℝ) :
    stationsAt bq R c (az + 360) = stationsAt bq R c az := by
  rw [stationsAt_eq, stationsAt_eq]
  have hd : deg2rad (az + 360) = deg2rad az + 2 * Real.pi := by
    simp only [deg2rad, num_real]
    push_cast
    ring
  have : rotorWind R c.Uinf c.Omega (deg2rad az + 2 * Real.pi) = rotorWind R c.Uinf c.Omega (deg2rad az) := by
    funext i
    exact windComponents_azimuth_periodic ..
  rw [hd, this]

theorem sum_shift {n : ℕ} {f : ℕ → ℝ} (h : ∀ k, f (k + n) = f k) (j : ℕ) : ∑ k ∈ range n, f (k + j) = ∑ k ∈ range n, f k := by
  induction j with
  | zero => rfl
  | succ j ih =>
    rw [← ih]
    have h1 := sum_range_succ (fun k => f (k + j)) n
    have h2 := sum_range_succ' (fun k => f (k + j)) n
    rw [h1] at h2
    have h3 : f (n + j) = f (0 + j) := by rw [zero_add, add_comm, h]
    rw [h3] at h2
    have h4 := add_right_cancel h2
    rw [h4]
    exact sum_congr rfl fun k _ => by rw [show k + (j + 1) = k + 1 + j by ring]

/-- Stations at the azimuths of the sectors -/
theorem stationsAt_sector (bq : RootFinder ℝ) {R : Rotor ℝ} (hns : R.nSector ≠ 0) (c : Cond ℝ) (k : ℕ) :
    stationsAt bq R c ((k + R.nSector : ℕ) * (360 / R.nSector)) = stationsAt bq R c (k * (360 / R.nSector)) := by
  have hn : (R.nSector : ℝ) ≠ 0 := by exact_mod_cast hns
  rw [show ((k + R.nSector : ℕ) : ℝ) * (360 / R.nSector) = k * (360 / R.nSector) + 360 by push_cast; field_simp]
  exact stationsAt_periodic ..

theorem stationsAt_turned (bq : RootFinder ℝ) {R R' : Rotor ℝ} {j : ℕ} (hns : R.nSector ≠ 0)
    (hT : WindTurned (2 * Real.pi * j / R.nSector) R R') (c : Cond ℝ) (k : ℕ) :
    stationsAt bq R' c ((k + j : ℕ) * (360 / R.nSector)) = stationsAt bq R c (k * (360 / R.nSector)) := by
  have hn : (R.nSector : ℝ) ≠ 0 := by exact_mod_cast hns
  have h1 : WindTurned ((j * (360 / R.nSector)) * (Real.pi / 180)) R R' := by
    convert hT using 1
    field_simp
    ring
  have := loads_wind_turned bq h1 c (k * (360 / R.nSector))
  rw [show (k : ℝ) * (360 / R.nSector) + j * (360 / R.nSector) = ((k + j : ℕ) : ℝ) * (360 / R.nSector) by push_cast; ring] at this
  exact this

/-- The integrals along the blade at the azimuth of a sector -/
noncomputable def sectorInt (bq : RootFinder ℝ) (R : Rotor ℝ) (c : Cond ℝ) (k : ℕ) : TTOut ℝ :=
  match stationsAt bq R c (k * (360 / R.nSector)) with
  | .ok s => bladeInt R ⟨s, [], []⟩
  | .error _ => bladeInt R ⟨[], [], []⟩

theorem WindTurned.nSector {d : ℝ} {R R' : Rotor ℝ} (h : WindTurned d R R') : R'.nSector = R.nSector := by
  obtain ⟨_, _, _, _, rfl, -⟩ := h
  rfl

theorem WindTurned.B {d : ℝ} {R R' : Rotor ℝ} (h : WindTurned d R R') : R'.B = R.B := by
  obtain ⟨_, _, _, _, rfl, -⟩ := h
  rfl

theorem WindTurned.bladeInt {d : ℝ} {R R' : Rotor ℝ} (h : WindTurned d R R') (L : LoadsOut ℝ) : bladeInt R' L = bladeInt R L := by
  obtain ⟨_, _, _, _, rfl, -⟩ := h
  rfl

theorem sectorInt_turned (bq : RootFinder ℝ) {R R' : Rotor ℝ} {j : ℕ} (hns : R.nSector ≠ 0)
    (hT : WindTurned (2 * Real.pi * j / R.nSector) R R') (c : Cond ℝ) (k : ℕ) :
    sectorInt bq R' c (k + j) = sectorInt bq R c k := by
  simp only [sectorInt, hT.nSector, stationsAt_turned bq hns hT, hT.bladeInt]

theorem sectorInt_periodic (bq : RootFinder ℝ) {R : Rotor ℝ} (hns : R.nSector ≠ 0) (c : Cond ℝ) (k : ℕ) :
    sectorInt bq R c (k + R.nSector) = sectorInt bq R c k := by
  simp only [sectorInt, stationsAt_sector bq hns]

/-- Averages over the sectors -/
theorem mean_turned (bq : RootFinder ℝ) {R R' : Rotor ℝ} {j : ℕ} (hns : R.nSector ≠ 0)
    (hT : WindTurned (2 * Real.pi * j / R.nSector) R R') (c : Cond ℝ) (g : TTOut ℝ → ℝ → ℝ)
    (hg : ∀ t p, g t (p + 2 * Real.pi) = g t p) :
    ∑ k ∈ range R'.nSector, g (sectorInt bq R' c k) (2 * Real.pi * k / R'.nSector) =
      ∑ k ∈ range R.nSector, g (sectorInt bq R c k) (2 * Real.pi * k / R.nSector + 2 * Real.pi * j / R.nSector) := by
  have hn : (R.nSector : ℝ) ≠ 0 := by exact_mod_cast hns
  have hns' : R'.nSector ≠ 0 := by rw [hT.nSector]; exact hns
  have hper : ∀ k, g (sectorInt bq R' c (k + R'.nSector)) (2 * Real.pi * (k + R'.nSector : ℕ) / R'.nSector) =
      g (sectorInt bq R' c k) (2 * Real.pi * k / R'.nSector) := by
    intro k
    rw [sectorInt_periodic bq hns']
    rw [show 2 * Real.pi * ((k + R'.nSector : ℕ) : ℝ) / R'.nSector = 2 * Real.pi * k / R'.nSector + 2 * Real.pi by
      rw [hT.nSector]; push_cast; field_simp, hg]
  rw [← sum_shift (f := fun k => g (sectorInt bq R' c k) (2 * Real.pi * k / R'.nSector)) hper j, hT.nSector]
  refine sum_congr rfl fun k _ => ?_
  rw [sectorInt_turned bq hns hT]
  congr 1
  push_cast
  ring

/-- The outputs as averages -/
theorem outputs_mean {bq : RootFinder ℝ} {R : Rotor ℝ} {cs : List (Cond ℝ)} {co : Bool} {o : EvalOut ℝ}
    (h : (evaluate bq R cs co).2 = .ok o) {m : ℕ} {c : Cond ℝ} {x : CondOut ℝ} (hc : cs[m]? = some c)
    (hx : o.conds[m]? = some x) :
    let I := sectorInt bq R c
    let psi := fun k : ℕ => 2 * Real.pi * k / R.nSector
    let mean := fun f : ℕ → ℝ => (∑ k ∈ range R.nSector, f k) / R.nSector
    x.acc.T.val = R.B * mean (fun k => (I k).T) ∧ x.acc.Q.val = R.B * mean (fun k => (I k).Q) ∧
    x.acc.Mb.val = mean (fun k => (I k).M) ∧
    x.acc.Y.val = R.B * mean (fun k => Real.cos (psi k) * (I k).Y - Real.sin (psi k) * (I k).Z) ∧
    x.acc.Z.val = R.B * mean (fun k => Real.sin (psi k) * (I k).Y + Real.cos (psi k) * (I k).Z) ∧
    x.acc.My.val = R.B * mean (fun k => Real.cos (psi k) * (I k).M) ∧
    x.acc.Mz.val = R.B * mean (fun k => Real.sin (psi k) * (I k).M) := by
  intro I psi mean
  obtain ⟨L, hL, h1, h2, h3, h4, h5, h6, h7, -⟩ := sector_averages h hc hx
  have hI : ∀ k < R.nSector, bladeInt R (L k) = I k := by
    intro k hk
    have : stationsAt bq R c (k * (360 / R.nSector)) = .ok (L k).stations := by rw [stationsAt, hL k hk]; rfl
    simp only [I, sectorInt, this]
    rfl
  have hm : ∀ g : TTOut ℝ → ℕ → ℝ, (∑ k ∈ range R.nSector, g (bladeInt R (L k)) k) / R.nSector = mean fun k => g (I k) k :=
    fun g => by simp only [mean]; rw [sum_congr rfl fun k hk => by rw [hI k (mem_range.mp hk)]]
  refine ⟨?_, ?_, ?_, ?_, ?_, ?_, ?_⟩
  · rw [h1]; exact congrArg _ (hm fun t _ => t.T)
  · rw [h2]; exact congrArg _ (hm fun t _ => t.Q)
  · rw [h3]; exact hm fun t _ => t.M
  · rw [h4]; exact congrArg _ (hm fun t k => Real.cos (psi k) * t.Y - Real.sin (psi k) * t.Z)
  · rw [h5]; exact congrArg _ (hm fun t k => Real.sin (psi k) * t.Y + Real.cos (psi k) * t.Z)
  · rw [h6]; exact congrArg _ (hm fun t k => Real.cos (psi k) * t.M)
  · rw [h7]; exact congrArg _ (hm fun t k => Real.sin (psi k) * t.M)

/-- Loads at the azimuths of all sectors exist for both rotors or for neither. -/
theorem loads_ok_turned (bq : RootFinder ℝ) {R R' : Rotor ℝ} {j : ℕ} (hT : WindTurned (2 * Real.pi * j / R.nSector) R R')
    (c : Cond ℝ) : (∃ a, condAcc bq R' c = .ok a) ↔ ∃ a, condAcc bq R c = .ok a := by
  rcases eq_or_ne R.nSector 0 with h0 | hns
  · rw [condAcc_ok_iff, condAcc_ok_iff, hT.nSector, h0]
    simp
  have hns' : R'.nSector ≠ 0 := by rw [hT.nSector]; exact hns
  have hok : ∀ (R : Rotor ℝ) (az : ℝ), (∃ L, (distributedAeroLoads bq R c.Uinf c.Omega c.pitch az).2 = .ok L) ↔
      ∃ s, stationsAt bq R c az = .ok s := by
    intro R az
    simp only [stationsAt]
    cases (distributedAeroLoads bq R c.Uinf c.Omega c.pitch az).2 <;> simp [Except.map]
  rw [condAcc_ok_iff, condAcc_ok_iff]
  simp only [hok]
  have per : ∀ {R : Rotor ℝ}, R.nSector ≠ 0 → Function.Periodic (fun k : ℕ => stationsAt bq R c (k * (360 / R.nSector))) R.nSector :=
    fun h k => stationsAt_sector bq h c k
  have turn := stationsAt_turned bq hns hT c
  constructor
  · intro h k hk
    obtain ⟨s, hs⟩ := h ((k + j) % R'.nSector) (Nat.mod_lt _ (by omega))
    refine ⟨s, ?_⟩
    rw [← turn, ← hs, ← hT.nSector]
    exact ((per hns').map_mod_nat (k + j)).symm
  · intro h k hk
    obtain ⟨s, hs⟩ := h ((k + (R.nSector * j - j)) % R.nSector) (Nat.mod_lt _ (by omega))
    refine ⟨s, ?_⟩
    have h1 := (per hns).map_mod_nat (k + (R.nSector * j - j))
    have hj : k + (R.nSector * j - j) + j = k + j * R.nSector := by
      have : j ≤ R.nSector * j := Nat.le_mul_of_pos_left j (by omega)
      rw [mul_comm j]
      omega
    have h2 := turn (k + (R.nSector * j - j))
    rw [hj] at h2
    beta_reduce at h1
    rw [← h1, hs] at h2
    rw [← h2, ← hT.nSector]
    exact ((per hns').nat_mul j k).symm

/-- **C107** The conditions can be evaluated for both rotors or for neither. -/
theorem wind_turned_ok (bq : RootFinder ℝ) {R R' : Rotor ℝ} {j : ℕ} (hT : WindTurned (2 * Real.pi * j / R.nSector) R R')
    (cs : List (Cond ℝ)) (co : Bool) : (∃ o, (evaluate bq R' cs co).2 = .ok o) ↔ ∃ o, (evaluate bq R cs co).2 = .ok o := by
  have single : ∀ c, (∃ o, (evaluate bq R' [c] co).2 = .ok o) ↔ ∃ o, (evaluate bq R [c] co).2 = .ok o := by
    intro c
    have key : ∀ R : Rotor ℝ, (∃ o, (evaluate bq R [c] co).2 = .ok o) ↔ (∃ a, condAcc bq R c = .ok a) ∧ R.nSector ≠ 0 := by
      intro R
      constructor
      · rintro ⟨o, h⟩
        obtain ⟨a, ha, hW, -⟩ := (evaluate_single bq R c co o).mp h
        exact ⟨⟨a, ha⟩, (condAcc_W ha).mp (by rw [hW]; rfl)⟩
      · rintro ⟨⟨a, ha⟩, hn⟩
        obtain ⟨W, hW⟩ := Option.isSome_iff_exists.mp ((condAcc_W ha).mpr hn)
        exact ⟨⟨_, W⟩, (evaluate_single _ _ _ _ _).mpr ⟨a, ha, hW, rfl⟩⟩
    rw [key, key, loads_ok_turned bq hT, hT.nSector]
  have dir : ∀ R R' : Rotor ℝ, (∀ c, (∃ o, (evaluate bq R [c] co).2 = .ok o) → ∃ o, (evaluate bq R' [c] co).2 = .ok o) →
      (∃ o, (evaluate bq R cs co).2 = .ok o) → ∃ o, (evaluate bq R' cs co).2 = .ok o := by
    rintro R R' hs ⟨o, h⟩
    have hf := evaluate_conditions bq R cs co o h
    refine evaluate_conditions_ok bq R' cs co ?_ fun c hc => hs c ?_
    · rintro rfl
      simp [evaluate, condLoop] at h
    · obtain ⟨i, hi, rfl⟩ := List.getElem_of_mem hc
      obtain ⟨o1, g1, -⟩ := (List.forall₂_iff_get.mp hf).2 i hi (by rw [← hf.length_eq]; exact hi)
      exact ⟨o1, g1⟩
  exact ⟨dir R' R fun c => (single c).mp, dir R R' fun c => (single c).mpr⟩

/-- The results of one condition for the turned wind: thrust, torque, power and blade moment are the same, the lateral forces and
moments are turned by the angle. -/
structure CondTurned (d : ℝ) (x x' : CondOut ℝ) : Prop where
  T : x'.acc.T.val = x.acc.T.val
  Q : x'.acc.Q.val = x.acc.Q.val
  Mb : x'.acc.Mb.val = x.acc.Mb.val
  P : x'.P.val = x.P.val
  Y : x'.acc.Y.val = Real.cos d * x.acc.Y.val - Real.sin d * x.acc.Z.val
  Z : x'.acc.Z.val = Real.sin d * x.acc.Y.val + Real.cos d * x.acc.Z.val
  My : x'.acc.My.val = Real.cos d * x.acc.My.val - Real.sin d * x.acc.Mz.val
  Mz : x'.acc.Mz.val = Real.sin d * x.acc.My.val + Real.cos d * x.acc.Mz.val

/-- **C107** (partial) The rotor outputs when the turn is a whole number of sectors: thrust, torque, power and blade moment do not
change, the lateral forces and moments are turned. -/
theorem wind_turned_partial {bq : RootFinder ℝ} {R R' : Rotor ℝ} {j : ℕ} (hT : WindTurned (2 * Real.pi * j / R.nSector) R R')
    {cs : List (Cond ℝ)} {co : Bool} {o o' : EvalOut ℝ} (h : (evaluate bq R cs co).2 = .ok o)
    (h' : (evaluate bq R' cs co).2 = .ok o') {m : ℕ} {x x' : CondOut ℝ} (hx : o.conds[m]? = some x)
    (hx' : o'.conds[m]? = some x') : CondTurned (2 * Real.pi * j / R.nSector) x x' := by
  have hm : m < cs.length := by rw [← evaluate_length h]; exact (List.getElem?_eq_some_iff.mp hx).1
  have hc := List.getElem?_eq_getElem hm
  generalize cs[m] = c at hc
  have hns : R.nSector ≠ 0 := by
    intro h0
    obtain ⟨o1, g1, -⟩ := (List.forall₂_iff_get.mp (evaluate_conditions bq R cs co o h)).2 m hm (List.getElem?_eq_some_iff.mp hx).1
    obtain ⟨a, ha, hW, -⟩ := (evaluate_single bq R _ co o1).mp g1
    exact (condAcc_W ha).mp (by rw [hW]; rfl) h0
  obtain ⟨e1, e2, e3, e4, e5, e6, e7⟩ := outputs_mean h hc hx
  obtain ⟨f1, f2, f3, f4, f5, f6, f7⟩ := outputs_mean h' hc hx'
  beta_reduce at e1 e2 e3 e4 e5 e6 e7 f1 f2 f3 f4 f5 f6 f7
  have hP : ∀ {R o} {x : CondOut ℝ}, (evaluate bq R cs co).2 = .ok o → o.conds[m]? = some x →
      x.P.val = x.acc.Q.val * (c.Omega * Real.pi / 30) := by
    intro R o x h hx
    rw [(evaluate_entry h hc hx).2.1]
    simp only [power, num_real]
    push_cast
    ring
  have hm := mean_turned bq hns hT c
  have c1 : ∀ p : ℝ, Real.cos (p + 2 * Real.pi) = Real.cos p := Real.cos_add_two_pi
  have s1 : ∀ p : ℝ, Real.sin (p + 2 * Real.pi) = Real.sin p := Real.sin_add_two_pi
  have hQ : x'.acc.Q.val = x.acc.Q.val := by
    rw [e2, f2, hT.B, hm (fun t _ => t.Q) fun _ _ => rfl, hT.nSector]
  refine ⟨?_, hQ, ?_, ?_, ?_, ?_, ?_, ?_⟩
  · rw [e1, f1, hT.B, hm (fun t _ => t.T) fun _ _ => rfl, hT.nSector]
  · rw [e3, f3, hm (fun t _ => t.M) fun _ _ => rfl, hT.nSector]
  · rw [hP h hx, hP h' hx', hQ]
  · rw [e4, e5, f4, hT.B, hm (fun t p => Real.cos p * t.Y - Real.sin p * t.Z) fun _ _ => by simp only [c1, s1], hT.nSector]
    simp only [← mul_div_assoc, mul_sum, sum_div, ← sum_sub_distrib]
    refine sum_congr rfl fun k _ => ?_
    rw [Real.cos_add, Real.sin_add]
    ring
  · rw [e4, e5, f5, hT.B, hm (fun t p => Real.sin p * t.Y + Real.cos p * t.Z) fun _ _ => by simp only [c1, s1], hT.nSector]
    simp only [← mul_div_assoc, mul_sum, sum_div, ← sum_add_distrib]
    refine sum_congr rfl fun k _ => ?_
    rw [Real.cos_add, Real.sin_add]
    ring
  · rw [e6, e7, f6, hT.B, hm (fun t p => Real.cos p * t.M) fun _ _ => by simp only [c1], hT.nSector]
    simp only [← mul_div_assoc, mul_sum, sum_div, ← sum_sub_distrib]
    refine sum_congr rfl fun k _ => ?_
    rw [Real.cos_add]
    ring
  · rw [e6, e7, f7, hT.B, hm (fun t p => Real.sin p * t.M) fun _ _ => by simp only [s1], hT.nSector]
    simp only [← mul_div_assoc, mul_sum, sum_div, ← sum_add_distrib]
    refine sum_congr rfl fun k _ => ?_
    rw [Real.sin_add]
    ring

/-! ## Rotors built from the arguments of the constructor -/

theorem windDirection_opposite (t y : ℝ) : windDirection (-t) (-y) = fromTurnedFrame .ex Real.pi (windDirection t y) := by
  rw [windDirection_comp, windDirection_comp, hub_comp]
  simp

theorem windDirection_quarter (t : ℝ) : windDirection 0 t = fromTurnedFrame .ex (Real.pi / 2) (windDirection t 0) := by
  rw [windDirection_comp, windDirection_comp, hub_comp]
  simp

theorem build_wind (x : CCArgs ℝ) (t y : ℝ) {R R' : Rotor ℝ} (h : x.build = .ok R)
    (h' : { x with tilt := t, yaw := y }.build = .ok R') :
    R' = { R with tilt := deg2rad t, yaw := deg2rad y,
                  nSector := if deg2rad t == 0 && deg2rad y == 0 && x.shearExp == 0 then 1 else max 4 x.nSector } := by
  unfold CCArgs.build at h h'
  by_cases hn : x.n = 0
  · simp [hn, throw, throwThe, MonadExceptOf.throw, bind, Except.bind] at h
  · simp only [hn, if_false, bind, Except.bind, pure, Except.pure] at h h'
    split at h
    · exact absurd h (by simp)
    · split at h
      · exact absurd h (by simp)
      · split at h
        · exact absurd h (by simp)
        · split at h
          · exact absurd h (by simp)
          · simp only [Except.ok.injEq] at h
            subst h
            simp_all only [Except.ok.injEq]

theorem rad_zero_iff (t : ℝ) : t * (Real.pi / 180) = 0 ↔ t = 0 := by
  simp [Real.pi_ne_zero]

/-- **C107** (partial) Opposite tilt and yaw: with an even number of sectors the thrust, torque, power and blade moment are the
same, and the lateral forces and moments are opposite. -/
theorem opposite_misalignment_partial {bq : RootFinder ℝ} {x : CCArgs ℝ} {R R' : Rotor ℝ} (h : x.build = .ok R)
    (h' : { x with tilt := -x.tilt, yaw := -x.yaw }.build = .ok R') (hs : x.shearExp = 0) (heven : Even (max 4 x.nSector))
    (hmis : x.tilt ≠ 0 ∨ x.yaw ≠ 0)
    {cs : List (Cond ℝ)} {co : Bool} {o o' : EvalOut ℝ} (he : (evaluate bq R cs co).2 = .ok o)
    (he' : (evaluate bq R' cs co).2 = .ok o') {m : ℕ} {y y' : CondOut ℝ} (hy : o.conds[m]? = some y)
    (hy' : o'.conds[m]? = some y') : CondTurned Real.pi y y' := by
  have hR := build_wind x _ _ h h'
  have hns : R.nSector = max 4 x.nSector := by
    rw [(build_fields h).1, if_neg]
    simp only [num_real, Bool.and_eq_true, decide_eq_true_eq, rad_zero_iff]
    tauto
  have hns' : (if deg2rad (-x.tilt) == 0 && deg2rad (-x.yaw) == 0 && x.shearExp == 0 then 1 else max 4 x.nSector) = R.nSector := by
    rw [hns, if_neg]
    simp only [num_real, Bool.and_eq_true, decide_eq_true_eq, rad_zero_iff, neg_eq_zero]
    tauto
  rw [hns'] at hR
  have hneg : ∀ t : ℝ, deg2rad (-t) = -deg2rad t := fun t => by simp only [deg2rad, num_real]; ring
  obtain ⟨j, hj⟩ := heven
  rw [← hns] at hj
  have hj0 : j ≠ 0 := by
    rintro rfl
    have := le_max_left 4 x.nSector
    omega
  have hang : 2 * Real.pi * (j : ℕ) / R.nSector = Real.pi := by
    have : (j : ℝ) ≠ 0 := by exact_mod_cast hj0
    rw [hj]
    push_cast
    field_simp
    ring
  have hT : WindTurned (2 * Real.pi * (j : ℕ) / R.nSector) R R' := by
    refine ⟨_, _, R.pitch, R.saved, hR, by rw [(build_data h).2.2.2.2.2.2.2.1, hs], ?_⟩
    rw [hang, hneg, hneg, windDirection_opposite, (build_fields h).2.2.2.2.2.2.1, (build_fields h).2.2.2.2.2.2.2.1]
  have := wind_turned_partial hT he he' hy hy'
  rwa [hang] at this

/-- **C107** (partial) Tilt and yaw by the same angle: with a multiple of four sectors the thrust, torque, power and blade moment
of a yawed rotor are those of the tilted one, and the lateral forces and moments are turned by a quarter of a turn. -/
theorem yaw_as_tilt_partial {bq : RootFinder ℝ} {x : CCArgs ℝ} {g : ℝ} {R R' : Rotor ℝ}
    (h : { x with tilt := g, yaw := 0 }.build = .ok R) (h' : { x with tilt := 0, yaw := g }.build = .ok R')
    (hs : x.shearExp = 0) (hfour : 4 ∣ max 4 x.nSector) (hg : g ≠ 0)
    {cs : List (Cond ℝ)} {co : Bool} {o o' : EvalOut ℝ} (he : (evaluate bq R cs co).2 = .ok o)
    (he' : (evaluate bq R' cs co).2 = .ok o') {m : ℕ} {y y' : CondOut ℝ} (hy : o.conds[m]? = some y)
    (hy' : o'.conds[m]? = some y') : CondTurned (Real.pi / 2) y y' := by
  have hR := build_wind { x with tilt := g, yaw := 0 } 0 g h h'
  have hns : R.nSector = max 4 x.nSector := by
    rw [(build_fields h).1, if_neg]
    simp only [num_real, Bool.and_eq_true, decide_eq_true_eq, rad_zero_iff]
    tauto
  have hns' : (if deg2rad (0 : ℝ) == 0 && deg2rad g == 0 && x.shearExp == 0 then 1 else max 4 x.nSector) = R.nSector := by
    rw [hns, if_neg]
    simp only [num_real, Bool.and_eq_true, decide_eq_true_eq, rad_zero_iff]
    tauto
  simp only at hR
  rw [hns'] at hR
  obtain ⟨j, hj⟩ := hfour
  rw [← hns] at hj
  have hj0 : j ≠ 0 := by
    rintro rfl
    have := le_max_left 4 x.nSector
    omega
  have hang : 2 * Real.pi * (j : ℕ) / R.nSector = Real.pi / 2 := by
    have : (j : ℝ) ≠ 0 := by exact_mod_cast hj0
    rw [hj]
    push_cast
    field_simp
    ring
  have h0 : deg2rad (0 : ℝ) = 0 := by rw [real_deg2rad, zero_mul]
  have hT : WindTurned (2 * Real.pi * (j : ℕ) / R.nSector) R R' := by
    refine ⟨_, _, R.pitch, R.saved, hR, by rw [(build_data h).2.2.2.2.2.2.2.1]; exact hs, ?_⟩
    rw [hang, h0, windDirection_quarter, (build_fields h).2.2.2.2.2.2.1, (build_fields h).2.2.2.2.2.2.2.1]
    simp only [h0]
  have := wind_turned_partial hT he he' hy hy'
  rwa [hang] at this

/-- The rotor of `demoArgs`, rotating, with six sectors, tilted by 5 and yawed by 20 degrees. -/
example {bq : RootFinder ℝ} (hbq : OnlyValueError bq) : ∃ R R' o o' y y',
    { demoArgs with tilt := 5, yaw := 20, nSector := 6 }.build = .ok R ∧
    { demoArgs with tilt := -5, yaw := -20, nSector := 6 }.build = .ok R' ∧
    (evaluate bq R [⟨10, 12, 0⟩] true).2 = .ok o ∧ (evaluate bq R' [⟨10, 12, 0⟩] true).2 = .ok o' ∧
    o.conds[0]? = some y ∧ o'.conds[0]? = some y' ∧ CondTurned Real.pi y y' := by
  obtain ⟨R, hR⟩ := build_total { demoArgs with tilt := 5, yaw := 20, nSector := 6 } (by simp [demoArgs])
  obtain ⟨R', hR'⟩ := build_total { demoArgs with tilt := -5, yaw := -20, nSector := 6 } (by simp [demoArgs])
  have ev : ∀ {x : CCArgs ℝ} {R}, x.build = .ok R → x.iterRe = 1 → x.derivatives = false →
      ∃ o y, (evaluate bq R [⟨10, 12, 0⟩] true).2 = .ok o ∧ o.conds = [y] := by
    intro x R h h1 h2
    have hd := build_data h
    have hns : R.nSector ≠ 0 := by
      rw [(build_fields h).1]
      split_ifs <;> omega
    obtain ⟨o, y, g1, g2, -⟩ := evaluate_total hbq R ⟨10, 12, 0⟩ true (by rw [hd.2.2.2.2.2.1, h1]; norm_num)
      (by rw [hd.2.2.2.2.2.2.1, h2]) (by norm_num) hns
    exact ⟨o, y, g1, g2⟩
  obtain ⟨o, y, e1, e2⟩ := ev hR rfl rfl
  obtain ⟨o', y', f1, f2⟩ := ev hR' rfl rfl
  have hy : o.conds[0]? = some y := by rw [e2]; rfl
  have hy' : o'.conds[0]? = some y' := by rw [f2]; rfl
  exact ⟨R, R', o, o', y, y', hR, hR', e1, f1, hy, hy', opposite_misalignment_partial hR hR' rfl ⟨3, rfl⟩
    (.inl (by norm_num)) e1 f1 hy hy'⟩

/-! ## A parked rotor with six sectors -/

/-- An airfoil whose drag depends on the Reynolds number -/
noncomputable def dragCrisis : AirfoilI ℝ where
  evaluate _ Re := (0, if 95 / 100 ≤ Re then 1 else 0)
  dclda _ _ := 0
  dcldRe _ _ := 0
  dcdda _ _ := 0
  dcddRe _ _ := 0

/-- A straight rotor with two stations and the given misalignment and number of sectors, without shear -/
noncomputable def crisisRotor (t y : ℝ) (ns : ℕ) : Rotor ℝ :=
  { parkedRotor 0 0 with af := fun _ => dragCrisis, tilt := t, yaw := y, shearExp := 0, nSector := ns }

theorem crisis_wind (t y az : ℝ) (ns : ℕ) {i : ℕ} (hi : i < 2) : rotorWind (crisisRotor t y ns) 1 0 az i =
    (Real.cos y * Real.cos t, Real.cos y * Real.sin t * Real.sin az - Real.sin y * Real.cos az) := by
  have hc : (defineCurvature 2 (crisisRotor t y ns).r (crisisRotor t y ns).precurve (crisisRotor t y ns).presweep 0).cone i = 0 := by
    refine cone_of_straight_blade 2 le_rfl _ _ _ 0 ⟨by linarith [Real.pi_pos], Real.pi_pos.le⟩
      (fun j hj => ?_) (fun _ _ => rfl) i hi
    simp only [crisisRotor, parkedRotor]
    push_cast
    linarith
  unfold rotorWind windComponents
  have e1 : (crisisRotor t y ns).n = 2 := rfl
  have e2 : (crisisRotor t y ns).precone = 0 := rfl
  simp only [e1, e2, hc, num_real]
  simp [defineCurvature, zAz, crisisRotor, parkedRotor, shearedWind, num_real]

/-- The evaluation succeeds; the thrust is a mean of the normal loads with positive weights, and these depend on the speed. -/
theorem crisis_eval (bq : RootFinder ℝ) (t y : ℝ) {ns : ℕ} (hns : ns ≠ 0) :
    ∃ o x, ∃ N : ℕ → ℕ → ℝ, ∃ u v : ℝ, (evaluate bq (crisisRotor t y ns) [⟨1, 0, 0⟩] false).2 = .ok o ∧ o.conds[0]? = some x ∧
      0 < u ∧ 0 < v ∧ x.acc.T.val = (∑ k ∈ range ns, (u * N k 0 + v * N k 1)) / ns ∧
      ∀ k : ℕ, ∀ i < 2, let psi := 2 * Real.pi * k / ns
        let Vx := Real.cos y * Real.cos t
        let Vy := Real.cos y * Real.sin t * Real.sin psi - Real.sin y * Real.cos psi
        (Vx ^ 2 + Vy ^ 2 < (95 / 100) ^ 2 → N k i = 0) ∧ 0 ≤ N k i ∧
        (Vx ≠ 0 → Vy ≠ 0 → (95 / 100) ^ 2 ≤ Vx ^ 2 + Vy ^ 2 → 0 < N k i) := by
  have hex := fun k : ℕ => distributedAeroLoads_standstill bq (crisisRotor t y ns) 1 0 0
    (k * (360 / ((crisisRotor t y ns).nSector : ℝ))) rfl (by simp) (fun x => by simp [num_real])
  choose L hL hlen _ using hex
  obtain ⟨a, ha⟩ := (condAcc_ok_iff bq (crisisRotor t y ns) ⟨1, 0, 0⟩).mpr fun k _ => ⟨L k, hL k⟩
  obtain ⟨W, hW⟩ := Option.isSome_iff_exists.mp ((condAcc_W ha).mpr hns)
  have h1 := (evaluate_single bq (crisisRotor t y ns) ⟨1, 0, 0⟩ false ⟨_, W⟩).mpr ⟨a, ha, hW, rfl⟩
  obtain ⟨u, v, hu, hv, hI⟩ := parked_weights 0 0
  refine ⟨_, _, fun k i => stationArr (L k).stations SecLoads.Np i, u, v, h1, rfl, hu, hv, ?_, fun k i hi => ?_⟩
  · obtain ⟨hT, -⟩ := hub_outputs (m := 0) h1 rfl rfl L fun k _ => hL k
    rw [hT]
    have hB : ((crisisRotor t y ns).B : ℝ) = 1 := by simp [crisisRotor, parkedRotor]
    have hn : (crisisRotor t y ns).nSector = ns := rfl
    rw [hB, one_mul, sectorMean, hn]
    congr 1
    refine sum_congr rfl fun k _ => ?_
    have hb : loadedBlade (crisisRotor t y ns) (L k) = loadedBlade (parkedRotor 0 0) (L k) := rfl
    have hc := fun {i} (hi : i < 4) => (parked_flat 0).cone (L k) (i := i) hi
    beta_reduce
    rw [hb, hI _ _ (by simp [loadedBlade, padded]) (by simp [loadedBlade, padded, parkedRotor]), hc (by norm_num), hc (by norm_num),
      Real.cos_zero]
    simp [loadedBlade, padded, parkedRotor]
  · intro psi Vx Vy
    have hs := List.getElem?_eq_getElem (show i < (L k).stations.length by rw [hlen]; exact hi)
    generalize (L k).stations[i]'(by rw [hlen]; exact hi) = s at hs
    have hang : (k : ℝ) * (360 / ((crisisRotor t y ns).nSector : ℝ)) * (Real.pi / 180) = psi := by
      have : (crisisRotor t y ns).nSector = ns := rfl
      rw [this]
      simp only [psi]
      ring
    have hV := crisis_wind t y ((k : ℝ) * (360 / ((crisisRotor t y ns).nSector : ℝ)) * (Real.pi / 180)) ns hi
    rw [hang] at hV
    have e1 : stationArr (L k).stations SecLoads.Np i = s.loads.Np := by simp [stationArr, hs]
    obtain ⟨g1, g2⟩ := parked_rotor_iff bq (crisisRotor t y ns) _ 1 0 _ (L k) (Prod.ext rfl (hL k)) i s hs Vx Vy 0
      (if 95 / 100 ≤ Real.sqrt (Vx ^ 2 + Vy ^ 2) then 1 else 0) (by rw [hang]; exact hV)
      (by simp [crisisRotor, dragCrisis, parkedRotor])
    have ev : (crisisRotor t y ns).rho * (Vx ^ 2 + Vy ^ 2) / 2 * (crisisRotor t y ns).chord i = (Vx ^ 2 + Vy ^ 2) / 2 := by
      simp [crisisRotor, parkedRotor]
    rw [ev] at g1
    beta_reduce
    rw [e1]
    have hle : 95 / 100 ≤ Real.sqrt (Vx ^ 2 + Vy ^ 2) ↔ (95 / 100) ^ 2 ≤ Vx ^ 2 + Vy ^ 2 := Real.le_sqrt' (by norm_num)
    by_cases hxy : Vx ≠ 0 ∧ Vy ≠ 0
    · have hN := (g1.mpr (.inl hxy)).1
      rw [hN]
      refine ⟨fun hlt => ?_, ?_, fun _ _ hge => ?_⟩
      · rw [if_neg (by rw [hle]; linarith), mul_zero]
      · split_ifs <;> positivity
      · rw [if_pos (hle.mpr hge)]
        nlinarith
    · have hN := (g2 hxy).1
      rw [hN]
      exact ⟨fun _ => rfl, le_rfl, fun a b => absurd ⟨a, b⟩ hxy⟩

theorem crisis_turned (t : ℝ) (ns : ℕ) : WindTurned (Real.pi / 2) (crisisRotor t 0 ns) (crisisRotor 0 t ns) :=
  ⟨0, t, none, none, rfl, rfl, windDirection_quarter t⟩

/-- The yawed rotor has a thrust: the blade pointing upwards sees the full wind speed. -/
theorem crisis_yawed (bq : RootFinder ℝ) {ns : ℕ} (hns : ns ≠ 0) : ∃ o x,
    (evaluate bq (crisisRotor 0 (Real.pi / 4) ns) [⟨1, 0, 0⟩] false).2 = .ok o ∧ o.conds[0]? = some x ∧ 0 < x.acc.T.val := by
  obtain ⟨o, x, N, u, v, h1, h2, hu, hv, hT, hN⟩ := crisis_eval bq 0 (Real.pi / 4) hns
  refine ⟨o, x, h1, h2, ?_⟩
  have hs : 0 < Real.sqrt 2 := by positivity
  have hq : Real.sqrt 2 ^ 2 = 2 := Real.sq_sqrt (by norm_num)
  have h0 : ∀ i < 2, 0 < N 0 i := by
    intro i hi
    have := (hN 0 i hi).2.2
    simp only [Nat.cast_zero, mul_zero, zero_div, Real.cos_zero, Real.sin_zero, mul_one, Real.cos_pi_div_four, Real.sin_pi_div_four,
      zero_sub] at this
    exact this (by positivity) (neg_ne_zero.mpr (by positivity)) (by nlinarith)
  have hn : (0 : ℝ) < ns := by exact_mod_cast Nat.pos_of_ne_zero hns
  rw [hT]
  refine div_pos (sum_pos' (fun k _ => ?_) ⟨0, mem_range.mpr (by omega), ?_⟩) hn
  · have a := (hN k 0 (by norm_num)).2.1
    have b := (hN k 1 (by norm_num)).2.1
    positivity
  · have a := h0 0 (by norm_num)
    have b := h0 1 (by norm_num)
    positivity

/-- **C107** (fails) With six sectors a rotor yawed by 45 degrees has a thrust, and the same rotor tilted by 45 degrees, which sees
the wind under the same angle, has none: no blade position of the sectors corresponds. -/
theorem misalignment_false (bq : RootFinder ℝ) : ∃ R R' c o o' x x', WindTurned (Real.pi / 2) R R' ∧ R.nSector = 6 ∧
    (evaluate bq R [c] false).2 = .ok o ∧ (evaluate bq R' [c] false).2 = .ok o' ∧ o.conds[0]? = some x ∧ o'.conds[0]? = some x' ∧
    x.acc.T.val = 0 ∧ 0 < x'.acc.T.val := by
  obtain ⟨o', x', g1, g2, g3⟩ := crisis_yawed bq (ns := 6) (by norm_num)
  obtain ⟨o, x, N, u, v, h1, h2, -, -, hT, hN⟩ := crisis_eval bq (Real.pi / 4) 0 (ns := 6) (by norm_num)
  refine ⟨_, _, ⟨1, 0, 0⟩, o, o', x, x', crisis_turned _ 6, rfl, h1, g1, h2, g2, ?_, g3⟩
  have h3 : Real.sin (Real.pi / 3) ^ 2 = 3 / 4 := by
    rw [Real.sin_pi_div_three, div_pow, Real.sq_sqrt (by norm_num)]
    norm_num
  have hq : Real.sqrt 2 ^ 2 = 2 := Real.sq_sqrt (by norm_num)
  have hsin : ∀ k < 6, Real.sin (2 * Real.pi * (k : ℕ) / (6 : ℕ)) ^ 2 ≤ 3 / 4 := by
    intro k hk
    have e : 2 * Real.pi * (k : ℕ) / (6 : ℕ) = k * (Real.pi / 3) := by push_cast; ring
    rw [e]
    interval_cases k
    · norm_num
    · rw [Nat.cast_one, one_mul, h3]
    · rw [show ((2 : ℕ) : ℝ) * (Real.pi / 3) = Real.pi - Real.pi / 3 by push_cast; ring, Real.sin_pi_sub, h3]
    · rw [show ((3 : ℕ) : ℝ) * (Real.pi / 3) = Real.pi by push_cast; ring, Real.sin_pi]
      norm_num
    · rw [show ((4 : ℕ) : ℝ) * (Real.pi / 3) = Real.pi / 3 + Real.pi by push_cast; ring, Real.sin_add_pi, neg_sq, h3]
    · rw [show ((5 : ℕ) : ℝ) * (Real.pi / 3) = 2 * Real.pi - Real.pi / 3 by push_cast; ring, Real.sin_two_pi_sub, neg_sq, h3]
  have h0 : ∀ k < 6, ∀ i < 2, N k i = 0 := by
    intro k hk i hi
    have := (hN k i hi).1
    simp only [Real.cos_zero, Real.sin_zero, Real.cos_pi_div_four, Real.sin_pi_div_four, one_mul, zero_mul, sub_zero] at this
    refine this ?_
    have := hsin k hk
    rw [mul_pow, div_pow, hq]
    norm_num
    push_cast at this
    linarith
  rw [hT, sum_eq_zero, zero_div]
  intro k hk
  rw [h0 k (mem_range.mp hk) 0 (by norm_num), h0 k (mem_range.mp hk) 1 (by norm_num)]
  simp

/-- With eight sectors the yawed and the tilted rotor have the same, positive thrust. -/
example (bq : RootFinder ℝ) : ∃ o o' x x', (evaluate bq (crisisRotor (Real.pi / 4) 0 8) [⟨1, 0, 0⟩] false).2 = .ok o ∧
    (evaluate bq (crisisRotor 0 (Real.pi / 4) 8) [⟨1, 0, 0⟩] false).2 = .ok o' ∧ o.conds[0]? = some x ∧ o'.conds[0]? = some x' ∧
    0 < x.acc.T.val ∧ CondTurned (Real.pi / 2) x x' := by
  obtain ⟨o', x', g1, g2, g3⟩ := crisis_yawed bq (ns := 8) (by norm_num)
  obtain ⟨o, x, -, -, -, h1, h2, -⟩ := crisis_eval bq (Real.pi / 4) 0 (ns := 8) (by norm_num)
  have hang : 2 * Real.pi * (2 : ℕ) / (crisisRotor (Real.pi / 4) 0 8).nSector = Real.pi / 2 := by
    simp only [crisisRotor]
    push_cast
    ring
  have hT : CondTurned (Real.pi / 2) x x' := by
    rw [← hang]
    refine wind_turned_partial ?_ h1 g1 h2 g2
    rw [hang]
    exact crisis_turned _ 8
  exact ⟨o, o', x, x', h1, g1, h2, g2, by rw [← hT.T]; exact g3, hT⟩

end Verif
