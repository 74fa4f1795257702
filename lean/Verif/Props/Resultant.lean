import Verif.Spec.Resultant
import Verif.Props.Rotor
import Verif.Props.Exact

/-!
# C102: forces and moments at the hub are the resultant of the distributed loads

`CCBladeEvaluate` announces `Fhub = [T, Y, Z]` and `Mhub = [Q, My, Mz]` as forces and moments at the hub centre in the hub
coordinate system (ccblade_component.py ll. 758-763, 841-844).
-/

namespace Verif

open Spec Spec.V3 Finset

/-- The blade of a rotor with the distributed loads `L`, completed by hub and tip where the loads vanish -/
noncomputable def loadedBlade (R : Rotor ℝ) (L : LoadsOut ℝ) : LoadedBlade where
  m := R.n + 1
  precone := R.precone
  q := bladePoint (padded R.n R.Rhub R.r R.Rtip) (padded R.n 0 R.precurve R.precurveTip) (padded R.n 0 R.presweep R.presweepTip)
  cone := (defineCurvature (R.n + 2) (padded R.n R.Rhub R.r R.Rtip) (padded R.n 0 R.precurve R.precurveTip)
    (padded R.n 0 R.presweep R.presweepTip) R.precone).cone
  N := padded R.n 0 (stationArr L.stations SecLoads.Np) 0
  T := padded R.n 0 (stationArr L.stations SecLoads.Tp) 0

theorem trapz_int (R : Rotor ℝ) (L : LoadsOut ℝ) (f : ℕ → ℝ) :
    trapz (R.n + 1) f (defineCurvature (R.n + 2) (padded R.n R.Rhub R.r R.Rtip) (padded R.n 0 R.precurve R.precurveTip)
      (padded R.n 0 R.presweep R.presweepTip) R.precone).s = (loadedBlade R L).int f := by
  simp only [trapz, real_sumTo, LoadedBlade.int]
  refine sum_congr rfl fun i _ => ?_
  rw [(pathLength_increments _ _ _ _ _).2 i]
  simp only [V3dist, LoadedBlade.len, loadedBlade, num_real]
  ring

/-- Integrals are linear. -/
theorem int_comb (b : LoadedBlade) (u v : ℝ) (f g : ℕ → ℝ) : b.int (fun i => u * f i + v * g i) = u * b.int f + v * b.int g := by
  simp only [LoadedBlade.int, mul_sum, ← sum_add_distrib]
  exact sum_congr rfl fun i _ => by ring

/-- Components of the forces in the azimuth frame -/
theorem force_comp (b : LoadedBlade) (i : ℕ) :
    b.force i = ⟨b.N i * Real.cos (b.cone i), -b.T i, b.N i * Real.sin (b.cone i)⟩ := by
  simp only [LoadedBlade.force, fromTurnedFrame, rotate, cross, smul, add, dot, ey, V3.mk.injEq]
  refine ⟨?_, ?_, ?_⟩ <;> ring

/-- Positions in the azimuth frame -/
theorem point_comp (b : LoadedBlade) (i : ℕ) :
    b.point i = ⟨(b.q i).x * Real.cos b.precone - (b.q i).z * Real.sin b.precone, (b.q i).y,
      (b.q i).x * Real.sin b.precone + (b.q i).z * Real.cos b.precone⟩ := by
  simp only [LoadedBlade.point, fromTurnedFrame, rotate, cross, smul, add, dot, ey, V3.mk.injEq]
  refine ⟨?_, ?_, ?_⟩ <;> ring

/-- From the azimuth frame to the hub frame -/
theorem hub_comp (v : V3) (psi : ℝ) : fromTurnedFrame ex psi v =
    ⟨v.x, v.y * Real.cos psi - v.z * Real.sin psi, v.y * Real.sin psi + v.z * Real.cos psi⟩ := by
  simp only [fromTurnedFrame, rotate, cross, smul, add, dot, ex, V3.mk.injEq]
  refine ⟨?_, ?_, ?_⟩ <;> ring

/-- The integrals of the code in terms of the specification -/
theorem bladeInt_spec (R : Rotor ℝ) (L : LoadsOut ℝ) :
    let b := loadedBlade R L
    (bladeInt R L).T = b.int (fun i => b.N i * Real.cos (b.cone i)) ∧
    (bladeInt R L).Y = b.int b.T ∧ (bladeInt R L).Z = b.int (fun i => b.N i * Real.sin (b.cone i)) ∧
    (bladeInt R L).Q = b.int (fun i => b.T i * (b.point i).z) ∧ (bladeInt R L).M = b.int (fun i => b.N i * (b.point i).z) := by
  intro b
  have hz : (defineCurvature (R.n + 2) (padded R.n R.Rhub R.r R.Rtip) (padded R.n 0 R.precurve R.precurveTip)
    (padded R.n 0 R.presweep R.presweepTip) R.precone).z_az = fun i => (b.point i).z := by
    funext i
    rw [point_comp]
    simp only [defineCurvature, zAz, b, loadedBlade, bladePoint, num_real]
    ring
  simp only [bladeInt, thrustTorque, trapz_int R L, hz]
  exact ⟨rfl, rfl, rfl, rfl, rfl⟩

/-- A rotor whose blades are straight and not coned, with stations between hub and tip in increasing order -/
structure FlatRotor (R : Rotor ℝ) : Prop where
  precone : R.precone = 0
  precurve : ∀ i, R.precurve i = 0
  precurveTip : R.precurveTip = 0
  radii : ∀ i < R.n + 1, padded R.n R.Rhub R.r R.Rtip i < padded R.n R.Rhub R.r R.Rtip (i + 1)

theorem loaded_straight_cone {R : Rotor ℝ} (hp : R.precone ∈ Set.Ioc (-Real.pi) Real.pi) (hc : ∀ i, R.precurve i = 0)
    (hcT : R.precurveTip = 0) (hr : ∀ i < R.n + 1, padded R.n R.Rhub R.r R.Rtip i < padded R.n R.Rhub R.r R.Rtip (i + 1))
    (L : LoadsOut ℝ) {i : ℕ} (hi : i < R.n + 2) : (loadedBlade R L).cone i = R.precone := by
  refine cone_of_straight_blade (R.n + 2) (by omega) _ (padded R.n 0 R.precurve R.precurveTip)
    (padded R.n 0 R.presweep R.presweepTip) _ hp (fun j hj => hr j (by omega)) (fun j _ => ?_) i hi
  simp only [padded]
  split_ifs <;> simp_all

theorem FlatRotor.cone {R : Rotor ℝ} (hF : FlatRotor R) (L : LoadsOut ℝ) {i : ℕ} (hi : i < R.n + 2) :
    (loadedBlade R L).cone i = 0 := by
  rw [loaded_straight_cone (by rw [hF.precone]; exact ⟨by linarith [Real.pi_pos], Real.pi_pos.le⟩) hF.precurve hF.precurveTip hF.radii L hi,
    hF.precone]

/-- Integrals depend on the values at the nodes only. -/
theorem int_congr (b : LoadedBlade) {f g : ℕ → ℝ} (h : ∀ i < b.m + 1, f i = g i) : b.int f = b.int g := by
  refine sum_congr rfl fun i hi => ?_
  have : i < b.m := mem_range.mp hi
  rw [h i (by omega), h (i + 1) (by omega)]

/-- Mean over the azimuths at which the code computes loads -/
noncomputable def sectorMean (R : Rotor ℝ) (f : ℕ → ℝ) : ℝ := (∑ k ∈ range R.nSector, f k) / R.nSector

/-- Azimuth of a sector (radians) -/
noncomputable def sectorPsi (R : Rotor ℝ) (k : ℕ) : ℝ := 2 * Real.pi * k / R.nSector

/-- `L k` are the distributed loads which the rotor reports at the azimuth of sector `k`. -/
def SectorLoads (bq : RootFinder ℝ) (R : Rotor ℝ) (c : Cond ℝ) (L : ℕ → LoadsOut ℝ) : Prop :=
  ∀ k < R.nSector, (distributedAeroLoads bq R c.Uinf c.Omega c.pitch (k * (360 / R.nSector))).2 = .ok (L k)

theorem sectorMean_comb (R : Rotor ℝ) (u v : ℝ) (f g : ℕ → ℝ) :
    sectorMean R (fun k => u * f k + v * g k) = u * sectorMean R f + v * sectorMean R g := by
  simp only [sectorMean, sum_add_distrib, ← mul_sum]
  ring

theorem sectorMean_congr (R : Rotor ℝ) {f g : ℕ → ℝ} (h : ∀ k < R.nSector, f k = g k) : sectorMean R f = sectorMean R g := by
  simp only [sectorMean]
  rw [sum_congr rfl fun k hk => h k (mem_range.mp hk)]

section
variable {bq : RootFinder ℝ} {R : Rotor ℝ} {cs : List (Cond ℝ)} {co : Bool} {o : EvalOut ℝ}
  (h : (evaluate bq R cs co).2 = .ok o) {m : ℕ} {c : Cond ℝ} {x : CondOut ℝ} (hc : cs[m]? = some c)
  (hx : o.conds[m]? = some x) (L : ℕ → LoadsOut ℝ) (hL : SectorLoads bq R c L)
include h hc hx hL

/-- The outputs in terms of integrals along the blade -/
theorem hub_outputs :
    let b := fun k => loadedBlade R (L k)
    let psi := sectorPsi R
    x.acc.T.val = R.B * sectorMean R (fun k => (b k).int fun i => (b k).N i * Real.cos ((b k).cone i)) ∧
    x.acc.Q.val = R.B * sectorMean R (fun k => (b k).int fun i => (b k).T i * ((b k).point i).z) ∧
    x.acc.Y.val = R.B * sectorMean R (fun k => Real.cos (psi k) * (b k).int (b k).T -
      Real.sin (psi k) * (b k).int fun i => (b k).N i * Real.sin ((b k).cone i)) ∧
    x.acc.Z.val = R.B * sectorMean R (fun k => Real.sin (psi k) * (b k).int (b k).T +
      Real.cos (psi k) * (b k).int fun i => (b k).N i * Real.sin ((b k).cone i)) ∧
    x.acc.My.val = R.B * sectorMean R (fun k => Real.cos (psi k) * (b k).int fun i => (b k).N i * ((b k).point i).z) ∧
    x.acc.Mz.val = R.B * sectorMean R (fun k => Real.sin (psi k) * (b k).int fun i => (b k).N i * ((b k).point i).z) := by
  intro b psi
  obtain ⟨L', hL', e1, e2, -, e3, e4, e5, e6, -⟩ := sector_averages h hc hx
  have hLL : ∀ k < R.nSector, L' k = L k := fun k hk => Except.ok.inj ((hL' k hk).symm.trans (hL k hk))
  have hI : ∀ k < R.nSector, bladeInt R (L' k) = bladeInt R (L k) := fun k hk => by rw [hLL k hk]
  rw [e1, e2, e3, e4, e5, e6]
  refine ⟨?_, ?_, ?_, ?_, ?_, ?_⟩ <;> congr 1 <;> refine sectorMean_congr R fun k hk => ?_ <;>
    simp only [hI k hk, (bladeInt_spec R (L k)).1, (bladeInt_spec R (L k)).2.1, (bladeInt_spec R (L k)).2.2.1,
      (bladeInt_spec R (L k)).2.2.2.1, (bladeInt_spec R (L k)).2.2.2.2] <;> rfl

/-- **C102** The thrust is the axial component of the resultant force of all the blades, for blades of any shape. -/
theorem hub_thrust : x.acc.T.val = R.B * sectorMean R (fun k => ((loadedBlade R (L k)).hubForce (sectorPsi R k)).x) := by
  rw [(hub_outputs h hc hx L hL).1]
  simp only [LoadedBlade.hubForce, hub_comp, LoadedBlade.int3, force_comp]

/-- **C102** (fails) The torque lacks the moment of the normal forces that act at a lateral offset on a coned section. -/
theorem hub_torque_error : x.acc.Q.val = R.B * sectorMean R (fun k => ((loadedBlade R (L k)).hubMoment (sectorPsi R k)).x) -
    R.B * sectorMean R (fun k => (loadedBlade R (L k)).int fun i =>
      ((loadedBlade R (L k)).q i).y * ((loadedBlade R (L k)).N i * Real.sin ((loadedBlade R (L k)).cone i))) := by
  rw [(hub_outputs h hc hx L hL).2.1, ← mul_sub, ← one_mul (sectorMean R fun k => V3.x _), sub_eq_add_neg,
    ← neg_one_mul (sectorMean R _), ← sectorMean_comb]
  congr 1
  refine sectorMean_congr R fun k _ => ?_
  simp only [LoadedBlade.hubMoment, hub_comp, LoadedBlade.int3, cross, force_comp]
  rw [← int_comb]
  congr 1
  funext i
  rw [point_comp]
  ring

/-- **C102** (partial) The torque is the axial component of the resultant moment for blades without sweep. -/
theorem hub_torque_partial (hs : ∀ i, R.presweep i = 0) (ht : R.presweepTip = 0) :
    x.acc.Q.val = R.B * sectorMean R (fun k => ((loadedBlade R (L k)).hubMoment (sectorPsi R k)).x) := by
  rw [hub_torque_error h hc hx L hL]
  have : ∀ k i, ((loadedBlade R (L k)).q i).y = 0 := by
    intro k i
    simp only [loadedBlade, bladePoint, padded]
    split_ifs <;> simp [hs, ht]
  simp [this, LoadedBlade.int, sectorMean]

/-- **C102** (fails) The lateral forces differ from the resultant by twice the force in the direction of rotation: it enters
with the wrong sign. -/
theorem hub_lateral_error :
    x.acc.Y.val = R.B * sectorMean R (fun k => ((loadedBlade R (L k)).hubForce (sectorPsi R k)).y) +
      2 * R.B * sectorMean R (fun k => Real.cos (sectorPsi R k) * (loadedBlade R (L k)).int (loadedBlade R (L k)).T) ∧
    x.acc.Z.val = R.B * sectorMean R (fun k => ((loadedBlade R (L k)).hubForce (sectorPsi R k)).z) +
      2 * R.B * sectorMean R (fun k => Real.sin (sectorPsi R k) * (loadedBlade R (L k)).int (loadedBlade R (L k)).T) := by
  obtain ⟨-, -, h1, h2, -, -⟩ := hub_outputs h hc hx L hL
  have hneg : ∀ b : LoadedBlade, b.int (fun i => -b.T i) = -b.int b.T := fun b => by
    have := int_comb b (-1) 0 b.T b.T
    simpa using this
  rw [h1, h2]
  constructor
  · rw [mul_comm 2 (R.B : ℝ), mul_assoc, ← mul_add, ← one_mul (sectorMean R fun k => V3.y _), ← sectorMean_comb]
    congr 1
    refine sectorMean_congr R fun k _ => ?_
    simp only [LoadedBlade.hubForce, hub_comp, LoadedBlade.int3, force_comp, hneg]
    ring
  · rw [mul_comm 2 (R.B : ℝ), mul_assoc, ← mul_add, ← one_mul (sectorMean R fun k => V3.z _), ← sectorMean_comb]
    congr 1
    refine sectorMean_congr R fun k _ => ?_
    simp only [LoadedBlade.hubForce, hub_comp, LoadedBlade.int3, force_comp, hneg]
    ring

/-- **C102** (fails) For blades whose sections are nowhere coned both lateral forces are reported with the opposite sign. -/
theorem hub_lateral_opposite (hF : FlatRotor R) :
    x.acc.Y.val = -(R.B * sectorMean R (fun k => ((loadedBlade R (L k)).hubForce (sectorPsi R k)).y)) ∧
    x.acc.Z.val = -(R.B * sectorMean R (fun k => ((loadedBlade R (L k)).hubForce (sectorPsi R k)).z)) := by
  obtain ⟨h1, h2⟩ := hub_lateral_error h hc hx L hL
  have hz : ∀ k, (loadedBlade R (L k)).int (fun i => (loadedBlade R (L k)).N i * Real.sin ((loadedBlade R (L k)).cone i)) = 0 := by
    intro k
    rw [int_congr (g := fun _ => 0) _ fun i hi => by rw [hF.cone (L k) hi, Real.sin_zero, mul_zero]]
    simp [LoadedBlade.int]
  have hneg : ∀ b : LoadedBlade, b.int (fun i => -b.T i) = -b.int b.T := fun b => by
    have := int_comb b (-1) 0 b.T b.T
    simpa using this
  have ey : ∀ k, ((loadedBlade R (L k)).hubForce (sectorPsi R k)).y =
      (-1) * (Real.cos (sectorPsi R k) * (loadedBlade R (L k)).int (loadedBlade R (L k)).T) + 0 * 0 := by
    intro k
    simp only [LoadedBlade.hubForce, hub_comp, LoadedBlade.int3, force_comp, hneg, hz]
    ring
  have ez : ∀ k, ((loadedBlade R (L k)).hubForce (sectorPsi R k)).z =
      (-1) * (Real.sin (sectorPsi R k) * (loadedBlade R (L k)).int (loadedBlade R (L k)).T) + 0 * 0 := by
    intro k
    simp only [LoadedBlade.hubForce, hub_comp, LoadedBlade.int3, force_comp, hneg, hz]
    ring
  rw [h1, h2]
  simp only [ey, ez, sectorMean_comb]
  constructor <;> ring

/-- **C102** (partial) The lateral moments are those of the resultant for straight blades without cone and sweep. -/
theorem hub_moments_partial (hF : FlatRotor R) (hs : ∀ i, R.presweep i = 0) (ht : R.presweepTip = 0) :
    x.acc.My.val = R.B * sectorMean R (fun k => ((loadedBlade R (L k)).hubMoment (sectorPsi R k)).y) ∧
    x.acc.Mz.val = R.B * sectorMean R (fun k => ((loadedBlade R (L k)).hubMoment (sectorPsi R k)).z) := by
  obtain ⟨-, -, -, -, h1, h2⟩ := hub_outputs h hc hx L hL
  have hpt : ∀ k i, ((loadedBlade R (L k)).point i).x = 0 ∧ ((loadedBlade R (L k)).point i).y = 0 := by
    intro k i
    rw [point_comp]
    simp only [loadedBlade, bladePoint, padded, hF.precone, hF.precurve, hF.precurveTip, hs, ht, Real.sin_zero]
    split_ifs <;> simp
  have e1 : ∀ k, (loadedBlade R (L k)).int (fun i => (cross ((loadedBlade R (L k)).point i) ((loadedBlade R (L k)).force i)).y) =
      (loadedBlade R (L k)).int (fun i => (loadedBlade R (L k)).N i * ((loadedBlade R (L k)).point i).z) := by
    intro k
    refine int_congr _ fun i hi => ?_
    simp only [cross, force_comp, (hpt k i).1, hF.cone (L k) hi, Real.cos_zero]
    ring
  have e2 : ∀ k, (loadedBlade R (L k)).int (fun i => (cross ((loadedBlade R (L k)).point i) ((loadedBlade R (L k)).force i)).z) = 0 := by
    intro k
    simp [cross, (hpt k _).1, (hpt k _).2, LoadedBlade.int]
  rw [h1, h2]
  constructor <;> congr 1 <;> refine sectorMean_congr R fun k _ => ?_ <;>
    simp only [LoadedBlade.hubMoment, hub_comp, LoadedBlade.int3, e1, e2] <;> ring

/-- **C102** (fails) For straight coned blades without sweep the lever arms are too short by the cosine of the precone, and the
moment of the tangential forces at the axial offset of the sections is missing. -/
theorem hub_moments_coned (hp : R.precone ∈ Set.Ioc (-Real.pi) Real.pi) (hcv : ∀ i, R.precurve i = 0)
    (hcT : R.precurveTip = 0) (hr : ∀ i < R.n + 1, padded R.n R.Rhub R.r R.Rtip i < padded R.n R.Rhub R.r R.Rtip (i + 1))
    (hs : ∀ i, R.presweep i = 0) (ht : R.presweepTip = 0) :
    let b := fun k => loadedBlade R (L k)
    let psi := sectorPsi R
    let n := fun k => (b k).int fun i => (b k).N i * ((b k).q i).z
    let t := fun k => (b k).int fun i => (b k).T i * ((b k).q i).z
    x.acc.My.val = R.B * Real.cos R.precone * sectorMean R (fun k => Real.cos (psi k) * n k) ∧
    x.acc.Mz.val = R.B * Real.cos R.precone * sectorMean R (fun k => Real.sin (psi k) * n k) ∧
    R.B * sectorMean R (fun k => ((b k).hubMoment (psi k)).y) =
      R.B * sectorMean R (fun k => Real.cos (psi k) * n k - Real.sin (psi k) * Real.sin R.precone * t k) ∧
    R.B * sectorMean R (fun k => ((b k).hubMoment (psi k)).z) =
      R.B * sectorMean R (fun k => Real.sin (psi k) * n k + Real.cos (psi k) * Real.sin R.precone * t k) := by
  intro b psi n t
  obtain ⟨-, -, -, -, h1, h2⟩ := hub_outputs h hc hx L hL
  have hq : ∀ k i, ((b k).q i).x = 0 ∧ ((b k).q i).y = 0 := by
    intro k i
    simp only [b, loadedBlade, bladePoint, padded, hcv, hcT, hs, ht]
    split_ifs <;> simp
  have hpt : ∀ k i, (b k).point i = ⟨-(((b k).q i).z * Real.sin R.precone), 0, ((b k).q i).z * Real.cos R.precone⟩ := by
    intro k i
    rw [point_comp, (hq k i).1, (hq k i).2]
    simp [b, loadedBlade]
  have e0 : ∀ k, (b k).int (fun i => (b k).N i * ((b k).point i).z) = Real.cos R.precone * n k := by
    intro k
    have := int_comb (b k) (Real.cos R.precone) 0 (fun i => (b k).N i * ((b k).q i).z) (fun _ => 0)
    simp only [zero_mul, add_zero] at this
    rw [← this]
    refine int_congr _ fun i _ => ?_
    rw [hpt]
    ring
  have e1 : ∀ k, (b k).int (fun i => (cross ((b k).point i) ((b k).force i)).y) = n k := by
    intro k
    refine int_congr _ fun i hi => ?_
    simp only [cross, force_comp, hpt, loaded_straight_cone hp hcv hcT hr (L k) hi, b]
    linear_combination ((loadedBlade R (L k)).N i * ((loadedBlade R (L k)).q i).z) * Real.sin_sq_add_cos_sq R.precone
  have e2 : ∀ k, (b k).int (fun i => (cross ((b k).point i) ((b k).force i)).z) = Real.sin R.precone * t k := by
    intro k
    have := int_comb (b k) (Real.sin R.precone) 0 (fun i => (b k).T i * ((b k).q i).z) (fun _ => 0)
    simp only [zero_mul, add_zero] at this
    rw [← this]
    refine int_congr _ fun i _ => ?_
    simp only [cross, force_comp, hpt]
    ring
  refine ⟨?_, ?_, ?_, ?_⟩
  · rw [h1, mul_assoc]
    congr 1
    have := sectorMean_comb R (Real.cos R.precone) 0 (fun k => Real.cos (psi k) * n k) (fun _ => 0)
    simp only [zero_mul, add_zero] at this
    rw [← this]
    refine sectorMean_congr R fun k _ => ?_
    linear_combination Real.cos (psi k) * e0 k
  · rw [h2, mul_assoc]
    congr 1
    have := sectorMean_comb R (Real.cos R.precone) 0 (fun k => Real.sin (psi k) * n k) (fun _ => 0)
    simp only [zero_mul, add_zero] at this
    rw [← this]
    refine sectorMean_congr R fun k _ => ?_
    linear_combination Real.sin (psi k) * e0 k
  · congr 1
    refine sectorMean_congr R fun k _ => ?_
    simp only [LoadedBlade.hubMoment, hub_comp, LoadedBlade.int3, e1, e2]
    ring
  · congr 1
    refine sectorMean_congr R fun k _ => ?_
    simp only [LoadedBlade.hubMoment, hub_comp, LoadedBlade.int3, e1, e2]
    ring

end

/-! ## A parked rotor, yawed by 45 degrees, in a wind that grows linearly with height -/

/-- An airfoil with constant coefficients of lift and drag, both one -/
noncomputable def parkedAirfoil : AirfoilI ℝ where
  evaluate _ _ := (1, 1)
  dclda _ _ := 0
  dcldRe _ _ := 0
  dcdda _ _ := 0
  dcddRe _ _ := 0

/-- Blades with precone `p` and sweep `y`, two stations, four azimuths -/
noncomputable def parkedRotor (p y : ℝ) : Rotor ℝ where
  n := 2
  r i := 10 + 20 * i
  chord _ := 1
  theta _ := 0
  af _ := parkedAirfoil
  Rhub := 2
  Rtip := 60
  B := 1
  rho := 1
  mu := 1
  precone := p
  tilt := 0
  yaw := Real.pi / 4
  shearExp := 1
  hubHt := 100
  opts := ⟨true, true, true, true⟩
  iterRe := 1
  derivatives := false
  precurve _ := 0
  precurveTip := 0
  presweep _ := y
  presweepTip := y
  rotorR := 60
  nSector := 4
  inv := none
  pitch := none
  saved := none

theorem parked_radii (p y : ℝ) (i : ℕ) (hi : i < (parkedRotor p y).n + 1) :
    padded (parkedRotor p y).n (parkedRotor p y).Rhub (parkedRotor p y).r (parkedRotor p y).Rtip i <
      padded (parkedRotor p y).n (parkedRotor p y).Rhub (parkedRotor p y).r (parkedRotor p y).Rtip (i + 1) := by
  have : i < 3 := hi
  interval_cases i <;> norm_num [padded, parkedRotor]

/-- Velocity at the sections: azimuths 0, 90, 180, 270 degrees -/
theorem parked_wind {p : ℝ} (hp : p ∈ Set.Ico 0 (Real.pi / 2)) (y : ℝ) (az : ℝ) {i : ℕ} (hi : i < 2) :
    rotorWind (parkedRotor p y) 1 0 az i =
      ((1 + (y * Real.sin az + (10 + 20 * i) * Real.cos p * Real.cos az) / 100) *
        (Real.sqrt 2 / 2 * Real.sin az * Real.sin p + Real.sqrt 2 / 2 * Real.cos p),
       (1 + (y * Real.sin az + (10 + 20 * i) * Real.cos p * Real.cos az) / 100) * -(Real.sqrt 2 / 2 * Real.cos az)) := by
  have hc : (defineCurvature 2 (parkedRotor p y).r (parkedRotor p y).precurve (parkedRotor p y).presweep p).cone i = p := by
    refine cone_of_straight_blade 2 le_rfl _ _ _ p ⟨by linarith [Real.pi_pos, hp.1], by linarith [Real.pi_pos, hp.2]⟩
      (fun j hj => ?_) (fun _ _ => rfl) i hi
    simp only [parkedRotor]
    push_cast
    linarith
  unfold rotorWind windComponents
  have e1 : (parkedRotor p y).n = 2 := rfl
  have e2 : (parkedRotor p y).precone = p := rfl
  simp only [e1, e2, hc, num_real]
  simp [defineCurvature, xAz, zAz, yAz, parkedRotor, shearedWind, heightFromHub, num_real]

/-- Load of a station at azimuth 0 (`e = 1`) or 180 degrees (`e = -1`) -/
noncomputable def parkedLoad (p e : ℝ) (i : ℕ) : ℝ := (1 + e * ((10 + 20 * i) * Real.cos p) / 100) ^ 2 * (Real.cos p ^ 2 + 1) / 4

theorem parkedLoad_pos {p e : ℝ} (hp : p ∈ Set.Ico 0 (Real.pi / 2)) (he : e = 1 ∨ e = -1) {i : ℕ} (hi : i < 2) :
    0 < parkedLoad p e i := by
  have h0 : 0 < Real.cos p := Real.cos_pos_of_mem_Ioo ⟨by linarith [Real.pi_pos, hp.1], hp.2⟩
  have h1 := Real.cos_le_one p
  have : 0 < 1 + e * ((10 + 20 * i) * Real.cos p) / 100 := by
    rcases he with rfl | rfl <;> interval_cases i <;> push_cast <;> linarith
  unfold parkedLoad
  positivity

theorem parkedLoad_lt {p : ℝ} (hp : p ∈ Set.Ico 0 (Real.pi / 2)) (i : ℕ) : parkedLoad p (-1) i < parkedLoad p 1 i := by
  have h0 : 0 < Real.cos p := Real.cos_pos_of_mem_Ioo ⟨by linarith [Real.pi_pos, hp.1], hp.2⟩
  unfold parkedLoad
  have : 0 < (10 + 20 * (i : ℝ)) * Real.cos p := by positivity
  generalize (10 + 20 * (i : ℝ)) * Real.cos p = u at this
  have hc : 0 < Real.cos p ^ 2 + 1 := by positivity
  nlinarith [mul_pos this hc]

/-- A station of the parked rotor at one of the four azimuths -/
theorem parked_station (bq : RootFinder ℝ) {p : ℝ} (hp : p ∈ Set.Ico 0 (Real.pi / 2)) (y az : ℝ) {i : ℕ} (hi : i < 2)
    {L : LoadsOut ℝ} (hL : (distributedAeroLoads bq (parkedRotor p y) 1 0 0 az).2 = .ok L) (hlen : L.stations.length = 2) :
    (Real.cos (az * (Real.pi / 180)) = 0 → stationArr L.stations SecLoads.Np i = 0 ∧ stationArr L.stations SecLoads.Tp i = 0) ∧
    (∀ e : ℝ, e = 1 ∨ e = -1 → Real.cos (az * (Real.pi / 180)) = e → Real.sin (az * (Real.pi / 180)) = 0 →
      stationArr L.stations SecLoads.Np i = parkedLoad p e i ∧ stationArr L.stations SecLoads.Tp i = parkedLoad p e i) := by
  have hs := List.getElem?_eq_getElem (show i < L.stations.length by omega)
  generalize L.stations[i]'(by omega) = s at hs
  have hV := parked_wind hp y (az * (Real.pi / 180)) hi
  obtain ⟨h1, h2⟩ := parked_rotor_iff bq (parkedRotor p y) _ 1 0 az L (Prod.ext rfl hL) i s hs _ _ 1 1 hV rfl
  have e1 : stationArr L.stations SecLoads.Np i = s.loads.Np := by simp [stationArr, hs]
  have e2 : stationArr L.stations SecLoads.Tp i = s.loads.Tp := by simp [stationArr, hs]
  have h0 : 0 < Real.cos p := Real.cos_pos_of_mem_Ioo ⟨by linarith [Real.pi_pos, hp.1], hp.2⟩
  rw [e1, e2]
  refine ⟨fun hc => h2 fun hh => hh.2 (by simp [hc]), fun e he hc hsn => ?_⟩
  rw [hc, hsn] at h1
  have hv : 0 < 1 + e * ((10 + 20 * i) * Real.cos p) / 100 := by
    have := Real.cos_le_one p
    rcases he with rfl | rfl <;> interval_cases i <;> push_cast <;> linarith
  have hs2 : 0 < Real.sqrt 2 := by positivity
  have hq : Real.sqrt 2 ^ 2 = 2 := Real.sq_sqrt (by norm_num)
  have he2 : e ^ 2 = 1 := by rcases he with rfl | rfl <;> norm_num
  have he0 : e ≠ 0 := by rcases he with rfl | rfl <;> norm_num
  have hv' : 1 + (y * 0 + (10 + 20 * (i : ℝ)) * Real.cos p * e) / 100 = 1 + e * ((10 + 20 * i) * Real.cos p) / 100 := by ring
  rw [hv'] at h1
  obtain ⟨g1, g2⟩ := h1.mpr (.inl ⟨mul_ne_zero hv.ne' (by simp; exact h0.ne'), mul_ne_zero hv.ne' (by simp [he0])⟩)
  rw [g1, g2, and_self]
  simp only [parkedRotor, parkedLoad]
  linear_combination (1 + e * ((10 + 20 * i) * Real.cos p) / 100) ^ 2 * (Real.cos p ^ 2 + e ^ 2) / 8 * hq +
    (1 + e * ((10 + 20 * i) * Real.cos p) / 100) ^ 2 / 4 * he2

/-- The evaluation of the parked rotor succeeds; its loads at the four azimuths. -/
theorem parked_eval (bq : RootFinder ℝ) {p : ℝ} (hp : p ∈ Set.Ico 0 (Real.pi / 2)) (y : ℝ) :
    ∃ o x L, (evaluate bq (parkedRotor p y) [⟨1, 0, 0⟩] false).2 = .ok o ∧ o.conds[0]? = some x ∧
      SectorLoads bq (parkedRotor p y) ⟨1, 0, 0⟩ L ∧
      ∀ i < 2, (∀ k ∈ [1, 3], stationArr (L k).stations SecLoads.Np i = 0 ∧ stationArr (L k).stations SecLoads.Tp i = 0) ∧
        (stationArr (L 0).stations SecLoads.Np i = parkedLoad p 1 i ∧ stationArr (L 0).stations SecLoads.Tp i = parkedLoad p 1 i) ∧
        (stationArr (L 2).stations SecLoads.Np i = parkedLoad p (-1) i ∧
          stationArr (L 2).stations SecLoads.Tp i = parkedLoad p (-1) i) := by
  have hex := fun k : ℕ => distributedAeroLoads_standstill bq (parkedRotor p y) 1 0 0 (k * (360 / ((parkedRotor p y).nSector : ℝ)))
    rfl (by simp) (fun x => by simp [num_real])
  choose L hL hlen _ using hex
  obtain ⟨a, ha⟩ := (condAcc_ok_iff bq (parkedRotor p y) ⟨1, 0, 0⟩).mpr fun k _ => ⟨L k, hL k⟩
  obtain ⟨W, hW⟩ := Option.isSome_iff_exists.mp ((condAcc_W ha).mpr (show (4 : ℕ) ≠ 0 by norm_num))
  refine ⟨⟨_, W⟩, _, L, (evaluate_single _ _ _ _ _).mpr ⟨a, ha, hW, rfl⟩, rfl, fun k _ => hL k, fun i hi => ?_⟩
  have st := fun k : ℕ => parked_station bq hp y _ hi (hL k) (hlen k)
  have ang : ∀ k : ℕ, (k : ℝ) * (360 / ((parkedRotor p y).nSector : ℝ)) * (Real.pi / 180) = k * (Real.pi / 2) := by
    intro k
    simp only [parkedRotor]
    push_cast
    ring
  simp only [ang] at st
  refine ⟨fun k hk => (st k).1 ?_, (st 0).2 1 (.inl rfl) (by simp) (by simp), (st 2).2 (-1) (.inr rfl) ?_ ?_⟩
  · simp only [List.mem_cons, List.not_mem_nil, or_false] at hk
    rcases hk with rfl | rfl
    · simp
    · have : ((3 : ℕ) : ℝ) * (Real.pi / 2) = Real.pi / 2 + Real.pi := by push_cast; ring
      rw [this, Real.cos_add_pi, Real.cos_pi_div_two, neg_zero]
  · have : ((2 : ℕ) : ℝ) * (Real.pi / 2) = Real.pi := by push_cast; ring
    rw [this, Real.cos_pi]
  · have : ((2 : ℕ) : ℝ) * (Real.pi / 2) = Real.pi := by push_cast; ring
    rw [this, Real.sin_pi]

/-- The mean over the four azimuths -/
theorem parked_mean (p y : ℝ) (f : ℕ → ℝ) : sectorMean (parkedRotor p y) f = (f 0 + f 1 + f 2 + f 3) / 4 := by
  have : (parkedRotor p y).nSector = 4 := rfl
  simp only [sectorMean, this, sum_range_succ, range_zero, sum_empty]
  norm_num

theorem parked_psi (p y : ℝ) :
    (Real.cos (sectorPsi (parkedRotor p y) 0) = 1 ∧ Real.cos (sectorPsi (parkedRotor p y) 1) = 0 ∧
      Real.cos (sectorPsi (parkedRotor p y) 2) = -1 ∧ Real.cos (sectorPsi (parkedRotor p y) 3) = 0) ∧
    Real.sin (sectorPsi (parkedRotor p y) 0) = 0 ∧ Real.sin (sectorPsi (parkedRotor p y) 2) = 0 := by
  have ang : ∀ k : ℕ, sectorPsi (parkedRotor p y) k = k * (Real.pi / 2) := by
    intro k
    simp only [sectorPsi, parkedRotor]
    push_cast
    ring
  have h2 : ((2 : ℕ) : ℝ) * (Real.pi / 2) = Real.pi := by push_cast; ring
  have h3 : ((3 : ℕ) : ℝ) * (Real.pi / 2) = Real.pi / 2 + Real.pi := by push_cast; ring
  simp only [ang, h2, h3, Real.cos_add_pi, Real.cos_pi, Real.sin_pi]
  simp

/-- The segments of the blade have positive length. -/
theorem parked_len (p y : ℝ) (L : LoadsOut ℝ) {i : ℕ} (hi : i < 3) : 0 < (loadedBlade (parkedRotor p y) L).len i := by
  have := parked_radii p y i hi
  refine Real.sqrt_pos.mpr ?_
  have h : 0 < ((loadedBlade (parkedRotor p y) L).q (i + 1)).z - ((loadedBlade (parkedRotor p y) L).q i).z := sub_pos.mpr this
  positivity

/-- Integral along the blade of a quantity that vanishes at hub and tip -/
theorem parked_int (p y : ℝ) (L : LoadsOut ℝ) {f : ℕ → ℝ} (h0 : f 0 = 0) (h3 : f 3 = 0) :
    ∃ u v : ℝ, 0 < u ∧ 0 < v ∧ (loadedBlade (parkedRotor p y) L).int f = u * f 1 + v * f 2 ∧
      u = ((loadedBlade (parkedRotor p y) L).len 0 + (loadedBlade (parkedRotor p y) L).len 1) / 2 ∧
      v = ((loadedBlade (parkedRotor p y) L).len 1 + (loadedBlade (parkedRotor p y) L).len 2) / 2 := by
  have l0 := parked_len p y L (i := 0) (by norm_num)
  have l1 := parked_len p y L (i := 1) (by norm_num)
  have l2 := parked_len p y L (i := 2) (by norm_num)
  refine ⟨_, _, by positivity, by positivity, ?_, rfl, rfl⟩
  have hm : (loadedBlade (parkedRotor p y) L).m = 3 := rfl
  simp only [LoadedBlade.int, hm, sum_range_succ, range_zero, sum_empty, h0, h3]
  ring

/-- The same weights for all loads -/
theorem parked_weights (p y : ℝ) : ∃ u v : ℝ, 0 < u ∧ 0 < v ∧ ∀ (L : LoadsOut ℝ) (f : ℕ → ℝ), f 0 = 0 → f 3 = 0 →
    (loadedBlade (parkedRotor p y) L).int f = u * f 1 + v * f 2 := by
  obtain ⟨u, v, hu, hv, -, e1, e2⟩ := parked_int p y ⟨[], [], []⟩ (f := fun _ => 0) rfl rfl
  refine ⟨u, v, hu, hv, fun L f h0 h3 => ?_⟩
  obtain ⟨u', v', -, -, h, e1', e2'⟩ := parked_int p y L h0 h3
  have : ∀ i, (loadedBlade (parkedRotor p y) L).len i = (loadedBlade (parkedRotor p y) ⟨[], [], []⟩).len i := fun _ => rfl
  rw [h, e1, e2, e1', e2', this, this, this]

theorem parked_flat (y : ℝ) : FlatRotor (parkedRotor 0 y) := ⟨rfl, fun _ => rfl, rfl, parked_radii 0 y⟩

/-- **C102** (fails) The parked rotor without cone and sweep: the side force is reported as positive, the resultant of the
distributed loads is a negative one. -/
theorem hub_lateral_false (bq : RootFinder ℝ) : ∃ R c o x L, (evaluate bq R [c] false).2 = .ok o ∧ o.conds[0]? = some x ∧
    SectorLoads bq R c L ∧ FlatRotor R ∧ (∀ i, R.presweep i = 0) ∧ R.presweepTip = 0 ∧
    0 < x.acc.Y.val ∧ R.B * sectorMean R (fun k => ((loadedBlade R (L k)).hubForce (sectorPsi R k)).y) < 0 := by
  have hp : (0 : ℝ) ∈ Set.Ico 0 (Real.pi / 2) := ⟨le_rfl, by linarith [Real.pi_pos]⟩
  obtain ⟨o, x, L, h1, h2, h3, h4⟩ := parked_eval bq hp 0
  obtain ⟨-, -, hY, -, -, -⟩ := hub_outputs h1 rfl h2 L h3
  obtain ⟨hO, -⟩ := hub_lateral_opposite h1 rfl h2 L h3 (parked_flat 0)
  obtain ⟨u, v, hu, hv, hI⟩ := parked_weights 0 0
  obtain ⟨⟨c0, c1, c2, c3⟩, s0, s2⟩ := parked_psi 0 0
  have hT : ∀ k, (loadedBlade (parkedRotor 0 0) (L k)).int (loadedBlade (parkedRotor 0 0) (L k)).T =
      u * stationArr (L k).stations SecLoads.Tp 0 + v * stationArr (L k).stations SecLoads.Tp 1 := fun k => hI _ _ rfl rfl
  have hN : ∀ k ∈ [1, 3], (loadedBlade (parkedRotor 0 0) (L k)).int (fun i => (loadedBlade (parkedRotor 0 0) (L k)).N i *
      Real.sin ((loadedBlade (parkedRotor 0 0) (L k)).cone i)) = 0 := by
    intro k _
    rw [int_congr (g := fun _ => 0) _ fun i hi => by rw [(parked_flat 0).cone (L k) hi, Real.sin_zero, mul_zero]]
    simp [LoadedBlade.int]
  have pos : 0 < x.acc.Y.val := by
    rw [hY, parked_mean]
    simp only [c0, c1, c2, c3, s0, s2, hT, hN 1 (by simp), hN 3 (by simp)]
    rw [(h4 0 (by norm_num)).2.1.2, (h4 0 (by norm_num)).2.2.2, (h4 1 (by norm_num)).2.1.2, (h4 1 (by norm_num)).2.2.2]
    have g0 := mul_lt_mul_of_pos_left (parkedLoad_lt hp 0) hu
    have g1 := mul_lt_mul_of_pos_left (parkedLoad_lt hp 1) hv
    have : ((parkedRotor 0 0).B : ℝ) = 1 := by simp [parkedRotor]
    rw [this]
    linarith
  exact ⟨_, _, o, x, L, h1, h2, h3, parked_flat 0, fun _ => rfl, rfl, pos, by linarith [hO]⟩

/-- **C102** (fails) With cone and sweep the torque is not the axial moment of the distributed loads. -/
theorem hub_torque_false (bq : RootFinder ℝ) : ∃ R c o x L, (evaluate bq R [c] false).2 = .ok o ∧ o.conds[0]? = some x ∧
    SectorLoads bq R c L ∧
    x.acc.Q.val < R.B * sectorMean R (fun k => ((loadedBlade R (L k)).hubMoment (sectorPsi R k)).x) := by
  have hp : Real.pi / 4 ∈ Set.Ico 0 (Real.pi / 2) := ⟨by positivity, by linarith [Real.pi_pos]⟩
  obtain ⟨o, x, L, h1, h2, h3, h4⟩ := parked_eval bq hp 1
  refine ⟨_, _, o, x, L, h1, h2, h3, ?_⟩
  rw [hub_torque_error h1 rfl h2 L h3]
  refine sub_lt_self _ ?_
  obtain ⟨u, v, hu, hv, hI⟩ := parked_weights (Real.pi / 4) 1
  have hcone : ∀ k, ∀ i < 4, (loadedBlade (parkedRotor (Real.pi / 4) 1) (L k)).cone i = Real.pi / 4 := fun k i hi =>
    loaded_straight_cone (R := parkedRotor (Real.pi / 4) 1) ⟨by simp only [parkedRotor]; linarith [Real.pi_pos],
      by simp only [parkedRotor]; linarith [Real.pi_pos]⟩ (fun _ => rfl) rfl (parked_radii _ _) (L k) hi
  have hQ : ∀ k, ((loadedBlade (parkedRotor (Real.pi / 4) 1) (L k)).int fun i =>
      ((loadedBlade (parkedRotor (Real.pi / 4) 1) (L k)).q i).y * ((loadedBlade (parkedRotor (Real.pi / 4) 1) (L k)).N i *
        Real.sin ((loadedBlade (parkedRotor (Real.pi / 4) 1) (L k)).cone i))) =
      Real.sin (Real.pi / 4) * (u * stationArr (L k).stations SecLoads.Np 0 + v * stationArr (L k).stations SecLoads.Np 1) := by
    intro k
    rw [hI _ _ (by simp [loadedBlade, padded]) (by simp [loadedBlade, padded, parkedRotor]), hcone k 1 (by norm_num),
      hcone k 2 (by norm_num)]
    simp only [loadedBlade, bladePoint, padded, parkedRotor]
    norm_num
    ring
  have hB : ((parkedRotor (Real.pi / 4) 1).B : ℝ) = 1 := by simp [parkedRotor]
  rw [hB, parked_mean]
  simp only [hQ]
  rw [(h4 0 (by norm_num)).2.1.1, (h4 0 (by norm_num)).2.2.1, (h4 1 (by norm_num)).2.1.1, (h4 1 (by norm_num)).2.2.1,
    ((h4 0 (by norm_num)).1 1 (by simp)).1, ((h4 0 (by norm_num)).1 3 (by simp)).1, ((h4 1 (by norm_num)).1 1 (by simp)).1,
    ((h4 1 (by norm_num)).1 3 (by simp)).1]
  have hs : 0 < Real.sin (Real.pi / 4) := Real.sin_pos_of_pos_of_lt_pi (by positivity) (by linarith [Real.pi_pos])
  have a0 := parkedLoad_pos hp (.inl rfl) (i := 0) (by norm_num)
  have a1 := parkedLoad_pos hp (.inl rfl) (i := 1) (by norm_num)
  have b0 := parkedLoad_pos hp (.inr rfl) (i := 0) (by norm_num)
  have b1 := parkedLoad_pos hp (.inr rfl) (i := 1) (by norm_num)
  positivity

/-- **C102** (fails) With cone, even without sweep, the lateral moments are not those of the distributed loads. -/
theorem hub_moments_false (bq : RootFinder ℝ) : ∃ R c o x L, (evaluate bq R [c] false).2 = .ok o ∧ o.conds[0]? = some x ∧
    SectorLoads bq R c L ∧ (∀ i, R.precurve i = 0) ∧ (∀ i, R.presweep i = 0) ∧
    x.acc.My.val < R.B * sectorMean R (fun k => ((loadedBlade R (L k)).hubMoment (sectorPsi R k)).y) := by
  have hp : Real.pi / 4 ∈ Set.Ico 0 (Real.pi / 2) := ⟨by positivity, by linarith [Real.pi_pos]⟩
  obtain ⟨o, x, L, h1, h2, h3, h4⟩ := parked_eval bq hp 0
  refine ⟨_, _, o, x, L, h1, h2, h3, fun _ => rfl, fun _ => rfl, ?_⟩
  obtain ⟨e1, -, e3, -⟩ := hub_moments_coned h1 rfl h2 L h3 ⟨by simp only [parkedRotor]; linarith [Real.pi_pos],
    by simp only [parkedRotor]; linarith [Real.pi_pos]⟩ (fun _ => rfl) rfl (parked_radii _ _) (fun _ => rfl) rfl
  obtain ⟨u, v, hu, hv, hI⟩ := parked_weights (Real.pi / 4) 0
  obtain ⟨⟨c0, c1, c2, c3⟩, s0, s2⟩ := parked_psi (Real.pi / 4) 0
  have hn : ∀ k, ((loadedBlade (parkedRotor (Real.pi / 4) 0) (L k)).int fun i =>
      (loadedBlade (parkedRotor (Real.pi / 4) 0) (L k)).N i * ((loadedBlade (parkedRotor (Real.pi / 4) 0) (L k)).q i).z) =
      u * (stationArr (L k).stations SecLoads.Np 0 * 10) + v * (stationArr (L k).stations SecLoads.Np 1 * 30) := by
    intro k
    rw [hI _ _ (by simp [loadedBlade, padded]) (by simp [loadedBlade, padded, parkedRotor])]
    simp only [loadedBlade, bladePoint, padded, parkedRotor]
    norm_num
  have ht : ∀ k, ((loadedBlade (parkedRotor (Real.pi / 4) 0) (L k)).int fun i =>
      (loadedBlade (parkedRotor (Real.pi / 4) 0) (L k)).T i * ((loadedBlade (parkedRotor (Real.pi / 4) 0) (L k)).q i).z) =
      u * (stationArr (L k).stations SecLoads.Tp 0 * 10) + v * (stationArr (L k).stations SecLoads.Tp 1 * 30) := by
    intro k
    rw [hI _ _ (by simp [loadedBlade, padded]) (by simp [loadedBlade, padded, parkedRotor])]
    simp only [loadedBlade, bladePoint, padded, parkedRotor]
    norm_num
  have hB : ((parkedRotor (Real.pi / 4) 0).B : ℝ) = 1 := by simp [parkedRotor]
  have hpc : (parkedRotor (Real.pi / 4) 0).precone = Real.pi / 4 := rfl
  rw [e1, e3, hB, hpc, parked_mean, parked_mean]
  simp only [hn, ht, c0, c1, c2, c3, s0, s2]
  rw [(h4 0 (by norm_num)).2.1.1, (h4 0 (by norm_num)).2.2.1, (h4 1 (by norm_num)).2.1.1, (h4 1 (by norm_num)).2.2.1,
    ((h4 0 (by norm_num)).1 1 (by simp)).2, ((h4 0 (by norm_num)).1 3 (by simp)).2, ((h4 1 (by norm_num)).1 1 (by simp)).2,
    ((h4 1 (by norm_num)).1 3 (by simp)).2]
  have g0 := mul_lt_mul_of_pos_left (parkedLoad_lt hp 0) hu
  have g1 := mul_lt_mul_of_pos_left (parkedLoad_lt hp 1) hv
  have hc : Real.cos (Real.pi / 4) < 1 := by
    rw [← Real.cos_zero]
    exact Real.cos_lt_cos_of_nonneg_of_le_pi le_rfl (by linarith [Real.pi_pos]) (by positivity)
  have hm := mul_lt_mul_of_pos_right hc (show 0 < u * (parkedLoad (Real.pi / 4) 1 0 * 10) + v * (parkedLoad (Real.pi / 4) 1 1 * 30) -
    (u * (parkedLoad (Real.pi / 4) (-1) 0 * 10) + v * (parkedLoad (Real.pi / 4) (-1) 1 * 30)) by linarith)
  linarith

/-- The parked rotor without cone and sweep has thrust. -/
theorem parked_thrust (bq : RootFinder ℝ) : ∃ o x L, (evaluate bq (parkedRotor 0 0) [⟨1, 0, 0⟩] false).2 = .ok o ∧
    o.conds[0]? = some x ∧ SectorLoads bq (parkedRotor 0 0) ⟨1, 0, 0⟩ L ∧ 0 < x.acc.T.val := by
  have hp : (0 : ℝ) ∈ Set.Ico 0 (Real.pi / 2) := ⟨le_rfl, by linarith [Real.pi_pos]⟩
  obtain ⟨o, x, L, h1, h2, h3, h4⟩ := parked_eval bq hp 0
  refine ⟨o, x, L, h1, h2, h3, ?_⟩
  obtain ⟨u, v, hu, hv, hI⟩ := parked_weights 0 0
  have hT : ∀ k, (loadedBlade (parkedRotor 0 0) (L k)).int (fun i => (loadedBlade (parkedRotor 0 0) (L k)).N i *
      Real.cos ((loadedBlade (parkedRotor 0 0) (L k)).cone i)) =
      u * stationArr (L k).stations SecLoads.Np 0 + v * stationArr (L k).stations SecLoads.Np 1 := by
    intro k
    rw [int_congr (g := (loadedBlade (parkedRotor 0 0) (L k)).N) _ fun i hi => by
      rw [(parked_flat 0).cone (L k) hi, Real.cos_zero, mul_one]]
    exact hI _ _ rfl rfl
  have hB : ((parkedRotor 0 0).B : ℝ) = 1 := by simp [parkedRotor]
  rw [(hub_outputs h1 rfl h2 L h3).1, hB, parked_mean]
  simp only [hT]
  rw [(h4 0 (by norm_num)).2.1.1, (h4 0 (by norm_num)).2.2.1, (h4 1 (by norm_num)).2.1.1, (h4 1 (by norm_num)).2.2.1,
    ((h4 0 (by norm_num)).1 1 (by simp)).1, ((h4 0 (by norm_num)).1 3 (by simp)).1, ((h4 1 (by norm_num)).1 1 (by simp)).1,
    ((h4 1 (by norm_num)).1 3 (by simp)).1]
  have a0 := parkedLoad_pos hp (.inl rfl) (i := 0) (by norm_num)
  have a1 := parkedLoad_pos hp (.inl rfl) (i := 1) (by norm_num)
  have b0 := parkedLoad_pos hp (.inr rfl) (i := 0) (by norm_num)
  have b1 := parkedLoad_pos hp (.inr rfl) (i := 1) (by norm_num)
  positivity

/-- Non-vacuity of the positive parts: the parked rotor without cone and sweep has thrust, and its thrust, torque and lateral
moments are those of the distributed loads. -/
example (bq : RootFinder ℝ) : ∃ R c o x L, (evaluate bq R [c] false).2 = .ok o ∧ o.conds[0]? = some x ∧
    SectorLoads bq R c L ∧ 0 < x.acc.T.val ∧
    x.acc.T.val = R.B * sectorMean R (fun k => ((loadedBlade R (L k)).hubForce (sectorPsi R k)).x) ∧
    x.acc.Q.val = R.B * sectorMean R (fun k => ((loadedBlade R (L k)).hubMoment (sectorPsi R k)).x) ∧
    x.acc.My.val = R.B * sectorMean R (fun k => ((loadedBlade R (L k)).hubMoment (sectorPsi R k)).y) ∧
    x.acc.Mz.val = R.B * sectorMean R (fun k => ((loadedBlade R (L k)).hubMoment (sectorPsi R k)).z) := by
  obtain ⟨o, x, L, h1, h2, h3, h4⟩ := parked_thrust bq
  exact ⟨_, _, o, x, L, h1, h2, h3, h4, hub_thrust h1 rfl h2 L h3, hub_torque_partial h1 rfl h2 L h3 (fun _ => rfl) rfl,
    hub_moments_partial h1 rfl h2 L h3 (parked_flat 0) (fun _ => rfl) rfl⟩

end Verif
