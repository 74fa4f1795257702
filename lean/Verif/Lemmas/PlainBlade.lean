import Verif.Lemmas.Component
import Verif.Props.AfSearch
import Verif.Props.Rotor
import Verif.Props.Unsteady

/-!
# The inputs of a component that describe the blade `plainRotor`
-/

namespace Verif

/-- Lift one, no drag, at two angles. -/
noncomputable def plainTables : AfTables ℝ where
  nAoa := 2
  nRe := 1
  nTab := 1
  aoa i := i
  Re _ := 1000000
  cl _ _ _ _ := 1
  cd _ _ _ _ := 0
  cm _ _ _ _ := 0

/-- The blade `plainRotor`, in the units of the components. -/
noncomputable def plainBlade : BladeIn ℝ where
  n := 3
  r i := 10 + 20 * i
  chord i := 4 - i
  Rhub := 2
  Rtip := 60
  hub_height := 90
  precone := 0
  tilt := 0
  yaw := 0
  precurve _ := 0
  precurveTip := 0
  presweep _ := 0
  presweepTip := 0
  af := plainTables
  nBlades := 3
  rho := 1225 / 1000
  mu := 1 / 50000
  shearExp := 0
  nSector := 8
  tiploss := false
  hubloss := false
  wakerotation := false
  usecd := true

theorem plainTables_airfoil (i : ℕ) : ∃ a, plainTables.airfoil cornerFit 0 i = .ok a ∧ a.toI = plainAirfoil := by
  have e : plainTables.airfoil cornerFit 0 i = .ok _ := rfl
  refine ⟨_, e, ?_⟩
  have hlen : (arr plainTables.nRe plainTables.Re).length < 2 := by simp [arr_length, plainTables]
  simp only [CCAf.toI, plainAirfoil, hlen, if_true]
  congr 1 <;> funext x y <;>
    simp [CCAf.evaluate, CCAf.derivatives, matTwice, AfTables.slice, plainTables, bind, Except.bind, pure, Except.pure]

theorem plainTables_airfoils : ∀ n, ∃ l, plainTables.airfoils cornerFit 0 n = .ok l ∧ l.length = n ∧
    ∀ i < n, afList l i = plainAirfoil
  | 0 => ⟨[], rfl, rfl, fun i hi => absurd hi (by omega)⟩
  | k + 1 => by
    obtain ⟨l, h1, h2, h3⟩ := plainTables_airfoils k
    obtain ⟨a, g1, g2⟩ := plainTables_airfoil k
    refine ⟨l ++ [a], by simp only [AfTables.airfoils, h1, g1, bind, Except.bind, pure, Except.pure], by simp [h2], ?_⟩
    intro i hi
    rcases Nat.lt_succ_iff_lt_or_eq.mp hi with h | rfl
    · rw [← h3 i h]
      simp only [afList]
      rw [List.getElem?_append_left (by omega)]
    · simp only [afList]
      rw [List.getElem?_append_right (by omega), h2, Nat.sub_self]
      exact g2

/-- The object built from the inputs. -/
theorem plainBlade_build (theta : ℕ → ℝ) (afs : List (CCAf ℝ)) (d : Bool) :
    (plainBlade.args theta afs d).build
      = .ok { plainRotor with af := afList afs, theta := fun i => deg2rad (theta i), derivatives := d } := by
  rw [build_interior _ (by simp [BladeIn.args, plainBlade]) (by norm_num [BladeIn.args, plainBlade])
    (by norm_num [BladeIn.args, plainBlade]) (fun _ => 0) (fun _ => 0) 0 0 rfl rfl rfl rfl (.inr rfl) (.inr rfl)]
  simp [BladeIn.args, plainBlade, plainRotor, demoRotor, num_real, real_deg2rad]

/-- Airfoils beyond the span do not matter. -/
theorem loads_congr_af (bq : RootFinder ℝ) (R : Rotor ℝ) (af : ℕ → AirfoilI ℝ) (haf : ∀ i < R.n, af i = R.af i)
    (U Omega pitch az : ℝ) {L : LoadsOut ℝ} (hL : (distributedAeroLoads bq { R with af := af } U Omega pitch az).2 = .ok L) :
    ∃ L', (distributedAeroLoads bq R U Omega pitch az).2 = .ok L' ∧ L'.stations = L.stations := by
  apply distributedAeroLoads_of_stations
  rw [← distributedAeroLoads_stations (Prod.ext rfl hL)]
  exact solveStations_congr fun i hi => (SameCore.solveStation (S := { R with af := af }) (R := R)
    ⟨rfl, rfl, rfl, rfl, rfl, rfl, rfl, rfl⟩ bq _ _ _ i rfl rfl (haf i hi) rfl (fun _ => rfl)).symm

end Verif
