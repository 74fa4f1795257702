import Verif.Props.Resultant

/-!
# C106: the blade root flap moment
-/

namespace Verif

open Finset Spec V3

theorem sectorMean_sum (R : Rotor ℝ) (f g : ℕ → ℝ) : sectorMean R (fun k => f k + g k) = sectorMean R f + sectorMean R g := by
  have := sectorMean_comb R 1 1 f g
  simpa using this

theorem int_sum (b : LoadedBlade) (f g : ℕ → ℝ) : b.int (fun i => f i + g i) = b.int f + b.int g := by
  have := int_comb b 1 1 f g
  simpa using this

/-- Excess of the lever arm: distance from the rotor axis less the arm of the normal force about the root -/
noncomputable def rootGap (b : LoadedBlade) (i : ℕ) : ℝ :=
  (b.point i).z - (((b.point i).z - (b.point 0).z) * Real.cos (b.cone i) - ((b.point i).x - (b.point 0).x) * Real.sin (b.cone i))

theorem root_spec (b : LoadedBlade) : b.int (fun i => b.N i * (b.point i).z) = b.rootMoment.y + b.int fun i => b.N i * rootGap b i := by
  simp only [LoadedBlade.rootMoment, LoadedBlade.int3, ← int_sum]
  refine int_congr b fun i _ => ?_
  simp only [force_comp, cross, add, smul, rootGap]
  ring

section
variable {bq : RootFinder ℝ} {R : Rotor ℝ} {cs : List (Cond ℝ)} {co : Bool} {o : EvalOut ℝ}
  (h : (evaluate bq R cs co).2 = .ok o) {m : ℕ} {c : Cond ℝ} {x : CondOut ℝ} (hc : cs[m]? = some c)
  (hx : o.conds[m]? = some x) (L : ℕ → LoadsOut ℝ) (hL : SectorLoads bq R c L)
include h hc hx hL

theorem root_output : x.acc.Mb.val =
    sectorMean R (fun k => (loadedBlade R (L k)).int fun i => (loadedBlade R (L k)).N i * ((loadedBlade R (L k)).point i).z) := by
  obtain ⟨L', hL', -, -, e, -⟩ := sector_averages h hc hx
  rw [e]
  refine sectorMean_congr R fun k hk => ?_
  have : L' k = L k := Except.ok.inj ((hL' k hk).symm.trans (hL k hk))
  simp only [this, (bladeInt_spec R (L k)).2.2.2.2]

/-- **C106** (fails) The reported root moment takes the distance from the rotor axis as the lever arm of the normal forces, in place of
the arm about the root: the difference for blades of any shape. -/
theorem root_moment_error : x.acc.Mb.val = sectorMean R (fun k => (loadedBlade R (L k)).rootMoment.y) +
    sectorMean R (fun k => (loadedBlade R (L k)).int fun i => (loadedBlade R (L k)).N i * rootGap (loadedBlade R (L k)) i) := by
  rw [root_output h hc hx L hL, ← sectorMean_sum]
  exact sectorMean_congr R fun k _ => root_spec _

/-- **C106** (fails) For straight blades the excess of the lever arm at the radius `r` is `Rhub - r (1 - cos precone)`. -/
theorem root_moment_straight (hp : R.precone ∈ Set.Ioc (-Real.pi) Real.pi) (hcv : ∀ i, R.precurve i = 0)
    (hcT : R.precurveTip = 0) (hr : ∀ i < R.n + 1, padded R.n R.Rhub R.r R.Rtip i < padded R.n R.Rhub R.r R.Rtip (i + 1)) :
    x.acc.Mb.val = sectorMean R (fun k => (loadedBlade R (L k)).rootMoment.y) +
      sectorMean R (fun k => (loadedBlade R (L k)).int fun i => (loadedBlade R (L k)).N i *
        (R.Rhub - padded R.n R.Rhub R.r R.Rtip i * (1 - Real.cos R.precone))) := by
  rw [root_moment_error h hc hx L hL]
  congr 1
  refine sectorMean_congr R fun k _ => int_congr _ fun i hi => ?_
  have hc0 : ∀ j, padded R.n 0 R.precurve R.precurveTip j = 0 := fun j => by
    simp only [padded]
    split_ifs <;> simp [hcv, hcT]
  have h0 : padded R.n R.Rhub R.r R.Rtip 0 = R.Rhub := by simp [padded]
  have hq : ∀ j, ((loadedBlade R (L k)).q j).x = 0 ∧ ((loadedBlade R (L k)).q j).z = padded R.n R.Rhub R.r R.Rtip j := fun j => ⟨hc0 j, rfl⟩
  have hpre : (loadedBlade R (L k)).precone = R.precone := rfl
  simp only [rootGap, point_comp, loaded_straight_cone hp hcv hcT hr (L k) hi, (hq _).1, (hq _).2, h0, hpre]
  linear_combination (loadedBlade R (L k)).N i * (R.Rhub - padded R.n R.Rhub R.r R.Rtip i) * Real.sin_sq_add_cos_sq R.precone

/-- **C106** (fails) For straight blades without cone the reported moment is that about the rotor axis: it exceeds the moment about the
root by the hub radius times the thrust of one blade. -/
theorem root_moment_flat (hF : FlatRotor R) (hB : R.B ≠ 0) :
    x.acc.Mb.val = sectorMean R (fun k => (loadedBlade R (L k)).rootMoment.y) + R.Rhub * (x.acc.T.val / R.B) := by
  have hB' : (R.B : ℝ) ≠ 0 := Nat.cast_ne_zero.mpr hB
  rw [root_moment_straight h hc hx L hL (by rw [hF.precone]; exact ⟨by linarith [Real.pi_pos], Real.pi_pos.le⟩) hF.precurve hF.precurveTip
    hF.radii, (hub_outputs h hc hx L hL).1, mul_div_cancel_left₀ _ hB']
  congr 1
  have := sectorMean_comb R R.Rhub 0 (fun k => (loadedBlade R (L k)).int fun i => (loadedBlade R (L k)).N i *
    Real.cos ((loadedBlade R (L k)).cone i)) (fun _ => 0)
  simp only [zero_mul, add_zero] at this
  refine Eq.trans ?_ this
  refine sectorMean_congr R fun k _ => ?_
  have h2 := int_comb (loadedBlade R (L k)) R.Rhub 0 (fun i => (loadedBlade R (L k)).N i *
    Real.cos ((loadedBlade R (L k)).cone i)) (fun _ => 0)
  simp only [zero_mul, add_zero] at h2
  refine Eq.trans ?_ h2
  refine int_congr _ fun i hi => ?_
  rw [hF.cone (L k) hi, hF.precone, Real.cos_zero]
  ring

/-- **C106** (partial) The root moment is right for straight blades without cone that begin at the rotor axis. -/
theorem root_moment_partial (hF : FlatRotor R) (hB : R.B ≠ 0) (hR : R.Rhub = 0) :
    x.acc.Mb.val = sectorMean R (fun k => (loadedBlade R (L k)).rootMoment.y) := by
  rw [root_moment_flat h hc hx L hL hF hB, hR, zero_mul, add_zero]

end

/-- **C106** is false: a rotor with straight blades, hub radius 2, whose reported root moment is too large. -/
theorem root_moment_false (bq : RootFinder ℝ) : ∃ (R : Rotor ℝ) (c : Cond ℝ) (o : EvalOut ℝ) (x : CondOut ℝ) (L : ℕ → LoadsOut ℝ),
    FlatRotor R ∧ R.Rhub = 2 ∧ (evaluate bq R [c] false).2 = .ok o ∧ o.conds[0]? = some x ∧ SectorLoads bq R c L ∧
    sectorMean R (fun k => (loadedBlade R (L k)).rootMoment.y) < x.acc.Mb.val := by
  obtain ⟨o, x, L, h1, h2, h3, h4⟩ := parked_thrust bq
  have hB : ((parkedRotor 0 0).B : ℝ) = 1 := by simp [parkedRotor]
  have hH : (parkedRotor 0 0).Rhub = 2 := rfl
  refine ⟨_, _, o, x, L, parked_flat 0, hH, h1, h2, h3, ?_⟩
  rw [root_moment_flat h1 rfl h2 L h3 (parked_flat 0) (by simp [parkedRotor]), hB, hH]
  linarith

/-- The parked rotor with blades that begin at the axis -/
noncomputable def axisRotor : Rotor ℝ := { parkedRotor 0 0 with Rhub := 0 }

theorem axis_flat : FlatRotor axisRotor := by
  refine ⟨rfl, fun _ => rfl, rfl, fun i hi => ?_⟩
  have : i < 3 := hi
  interval_cases i <;> norm_num [padded, axisRotor, parkedRotor]

/-- Non-vacuity of the positive part -/
example (bq : RootFinder ℝ) : ∃ o x L, (evaluate bq axisRotor [⟨1, 0, 0⟩] false).2 = .ok o ∧ o.conds[0]? = some x ∧
    SectorLoads bq axisRotor ⟨1, 0, 0⟩ L ∧ x.acc.Mb.val = sectorMean axisRotor (fun k => (loadedBlade axisRotor (L k)).rootMoment.y) := by
  obtain ⟨a, h1⟩ := (condAcc_ok_iff bq axisRotor ⟨1, 0, 0⟩).mpr fun k _ => by
    obtain ⟨L, hL, -⟩ := distributedAeroLoads_standstill bq axisRotor 1 0 0 (k * (360 / axisRotor.nSector)) rfl (by simp [num_real])
      (fun x => by simp [num_real])
    exact ⟨L, hL⟩
  obtain ⟨W, hW⟩ := Option.isSome_iff_exists.mp ((condAcc_W h1).mpr (by simp [axisRotor, parkedRotor]))
  have h0 : (evaluate bq axisRotor [⟨1, 0, 0⟩] false).2 = .ok ⟨_, W⟩ := (evaluate_single _ _ _ _ _).mpr ⟨a, h1, hW, rfl⟩
  obtain ⟨L, hL, -⟩ := sector_averages h0 (m := 0) rfl rfl
  exact ⟨_, _, L, h0, rfl, hL, root_moment_partial h0 (m := 0) rfl rfl L hL axis_flat (by simp [axisRotor, parkedRotor]) rfl⟩

end Verif
