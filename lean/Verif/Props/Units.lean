import Verif.Model.Units
import Verif.Lemmas.Units
import Verif.Props.EvalComponent
import Verif.Props.TwistOutputs
import Verif.Props.StallParam
import Verif.Props.Declare

/-!
# The results do not depend on the system of units (C99)
-/

namespace Verif

open Finset

/-! ## Specification -/

/-- The exponents of length, time and mass of a unit; angles and revolutions count as numbers. -/
def unitDim : String → Option (ℤ × ℤ × ℤ)
  | "m" => some (1, 0, 0)
  | "m/s" => some (1, -1, 0)
  | "rpm" => some (0, -1, 0)
  | "deg" => some (0, 0, 0)
  | "rad" => some (0, 0, 0)
  | "kg/m**3" => some (-3, 0, 1)
  | "kg/(m*s)" => some (-1, -1, 1)
  | "N/m" => some (0, -2, 1)
  | "N" => some (1, -2, 1)
  | "N*m" => some (2, -2, 1)
  | "W" => some (2, -3, 1)
  | _ => none

/-- The factor by which the value of a quantity with these exponents changes when the units do -/
noncomputable def Units.factor (u : Units) (d : ℤ × ℤ × ℤ) : ℝ := u.L ^ d.1 * u.T ^ d.2.1 * u.M ^ d.2.2

/-- The factor of a variable according to the unit announced for it (0 for unknown names and units) -/
noncomputable def Units.declared (u : Units) (t : UnitTable) (name : String) : ℝ :=
  match t.lookup name with
  | none => 0
  | some none => 1
  | some (some s) => match unitDim s with
    | none => 0
    | some d => u.factor d

/-- Tables of airfoils with every input multiplied by its factor -/
noncomputable def AfTables.times (k : String → ℝ) (t : AfTables ℝ) : AfTables ℝ :=
  { t with
    aoa := fun i => k "airfoils_aoa" * t.aoa i
    Re := fun i => k "airfoils_Re" * t.Re i
    cl := fun i a b c => k "airfoils_cl" * t.cl i a b c
    cd := fun i a b c => k "airfoils_cd" * t.cd i a b c
    cm := fun i a b c => k "airfoils_cm" * t.cm i a b c }

/-- The inputs shared by the components, each multiplied by its factor -/
noncomputable def BladeIn.times (k : String → ℝ) (x : BladeIn ℝ) : BladeIn ℝ :=
  { x with
    r := fun i => k "r" * x.r i
    chord := fun i => k "chord" * x.chord i
    Rhub := k "Rhub" * x.Rhub
    Rtip := k "Rtip" * x.Rtip
    hub_height := k "hub_height" * x.hub_height
    precone := k "precone" * x.precone
    tilt := k "tilt" * x.tilt
    yaw := k "yaw" * x.yaw
    precurve := fun i => k "precurve" * x.precurve i
    precurveTip := k "precurveTip" * x.precurveTip
    presweep := fun i => k "presweep" * x.presweep i
    presweepTip := k "presweepTip" * x.presweepTip
    af := x.af.times k
    rho := k "rho" * x.rho
    mu := k "mu" * x.mu
    shearExp := k "shearExp" * x.shearExp }

/-- The inputs of `CCBladeGeometry`, each multiplied by its factor -/
noncomputable def GeomIn.times (k : String → ℝ) (x : GeomIn ℝ) : GeomIn ℝ :=
  { x with
    Rtip := k "Rtip" * x.Rtip
    precurve := fun i => k "precurve_in" * x.precurve i
    presweep := fun i => k "presweep_in" * x.presweep i
    precone := k "precone" * x.precone }

/-- The inputs of `CCBladeLoads` -/
noncomputable def LoadsIn.times (k : String → ℝ) (x : LoadsIn ℝ) : LoadsIn ℝ where
  blade := x.blade.times k
  theta i := k "theta" * x.theta i
  V_load := k "V_load" * x.V_load
  Omega_load := k "Omega_load" * x.Omega_load
  pitch_load := k "pitch_load" * x.pitch_load
  azimuth_load := k "azimuth_load" * x.azimuth_load

/-- The inputs of `CCBladeEvaluate` -/
noncomputable def EvalIn.times (k : String → ℝ) (x : EvalIn ℝ) : EvalIn ℝ where
  blade := x.blade.times k
  theta i := k "theta" * x.theta i
  V_load := k "V_load" * x.V_load
  Omega_load := k "Omega_load" * x.Omega_load
  pitch_load := k "pitch_load" * x.pitch_load

/-- The inputs of `CCBladeTwist` -/
noncomputable def TwistIn.times (k : String → ℝ) (x : TwistIn ℝ) : TwistIn ℝ :=
  { x with
    blade := x.blade.times k
    Uhub := k "Uhub" * x.Uhub
    tsr := k "tsr" * x.tsr
    pitch := k "pitch" * x.pitch
    s_opt_theta := fun i => k "s_opt_theta" * x.s_opt_theta i
    theta_in := fun i => k "theta_in" * x.theta_in i
    aoa_op := fun i => k "aoa_op" * x.aoa_op i
    rthick := fun i => k "rthick" * x.rthick i }

/-! ## The factors -/

theorem factor_one (u : Units) : u.factor (0, 0, 0) = 1 := by simp [Units.factor]
theorem factor_len (u : Units) : u.factor (1, 0, 0) = u.L := by simp [Units.factor]
theorem factor_vel (u : Units) : u.factor (1, -1, 0) = u.vel := by simp [Units.factor, Units.vel, div_eq_mul_inv]
theorem factor_rate (u : Units) : u.factor (0, -1, 0) = u.rate := by simp [Units.factor, Units.rate]
theorem factor_dens (u : Units) : u.factor (-3, 0, 1) = u.dens := by
  have h : u.L ^ (-3 : ℤ) = (u.L ^ 3)⁻¹ := by rw [zpow_neg]; rfl
  simp only [Units.factor, Units.dens, h, zpow_zero, zpow_one, mul_one, div_eq_mul_inv]; ring
theorem factor_visc (u : Units) : u.factor (-1, -1, 1) = u.visc := by
  simp only [Units.factor, Units.visc, zpow_neg_one, zpow_one, div_eq_mul_inv, mul_inv]; ring
theorem factor_line (u : Units) : u.factor (0, -2, 1) = u.line := by
  have h : u.T ^ (-2 : ℤ) = (u.T ^ 2)⁻¹ := by rw [zpow_neg]; rfl
  simp only [Units.factor, Units.line, h, zpow_zero, zpow_one, one_mul, div_eq_mul_inv]; ring
theorem factor_force (u : Units) : u.factor (1, -2, 1) = u.force := by
  have h : u.T ^ (-2 : ℤ) = (u.T ^ 2)⁻¹ := by rw [zpow_neg]; rfl
  simp only [Units.factor, Units.force, h, zpow_one, div_eq_mul_inv]; ring
theorem factor_moment (u : Units) : u.factor (2, -2, 1) = u.moment := by
  have h : u.T ^ (-2 : ℤ) = (u.T ^ 2)⁻¹ := by rw [zpow_neg]; rfl
  have h' : u.L ^ (2 : ℤ) = u.L ^ 2 := rfl
  simp only [Units.factor, Units.moment, h, h', zpow_one, div_eq_mul_inv]; ring
theorem factor_power (u : Units) : u.factor (2, -3, 1) = u.power := by
  have h : u.T ^ (-3 : ℤ) = (u.T ^ 3)⁻¹ := by rw [zpow_neg]; rfl
  have h' : u.L ^ (2 : ℤ) = u.L ^ 2 := rfl
  simp only [Units.factor, Units.power, h, h', zpow_one, div_eq_mul_inv]; ring

theorem declared_unit (u : Units) {t : UnitTable} {name s : String} {d : ℤ × ℤ × ℤ} (h : t.lookup name = some (some s))
    (hs : unitDim s = some d) : u.declared t name = u.factor d := by
  simp only [Units.declared, h, hs]

theorem declared_none (u : Units) {t : UnitTable} {name : String} (h : t.lookup name = some none) : u.declared t name = 1 := by
  simp only [Units.declared, h]

/-! ## `CCBlade` -/

/-- **C99** A rotor described in other units of length, time and mass: the constructor raises the same exception or builds an
object for which every later call of `distributedAeroLoads` and `evaluate` raises the same exception or returns the same physical
quantities: inflow angles, induction factors, angles of attack, coefficients and Reynolds numbers are the same numbers, the others
change with their dimensions (N/m for the loads, N, N m and W for the integrated quantities, m/s for the relative wind).  No
assumption is made about the airfoils. -/
theorem rotor_any_units (u : Units) (x : CCArgs ℝ) (bq : RootFinder ℝ) :
    ExRel (fun R R' : Rotor ℝ =>
      (∀ U Om pitch az, ExRel (fun L L' => List.Forall₂ (fun s s' : Station ℝ =>
          s'.phi = s.phi ∧ s'.theta = s.theta ∧ s'.loads.a = s.loads.a ∧ s'.loads.ap = s.loads.ap ∧ s'.loads.alpha = s.loads.alpha ∧
          s'.loads.cl = s.loads.cl ∧ s'.loads.cd = s.loads.cd ∧ s'.loads.Re = s.loads.Re ∧
          s'.loads.W = u.factor (1, -1, 0) * s.loads.W ∧ s'.loads.Np = u.factor (0, -2, 1) * s.loads.Np ∧
          s'.loads.Tp = u.factor (0, -2, 1) * s.loads.Tp) L.stations L'.stations)
        (distributedAeroLoads bq R U Om pitch az).2
        (distributedAeroLoads bq R' (u.factor (1, -1, 0) * U) (u.factor (0, -1, 0) * Om) pitch az).2) ∧
      ∀ cs co, ExRel (fun o o' => (∀ i, o'.W i = u.factor (1, -1, 0) * o.W i) ∧ List.Forall₂ (fun c c' : CondOut ℝ =>
          c'.acc.T.val = u.factor (1, -2, 1) * c.acc.T.val ∧ c'.acc.Y.val = u.factor (1, -2, 1) * c.acc.Y.val ∧
          c'.acc.Z.val = u.factor (1, -2, 1) * c.acc.Z.val ∧ c'.acc.Q.val = u.factor (2, -2, 1) * c.acc.Q.val ∧
          c'.acc.My.val = u.factor (2, -2, 1) * c.acc.My.val ∧ c'.acc.Mz.val = u.factor (2, -2, 1) * c.acc.Mz.val ∧
          c'.acc.Mb.val = u.factor (2, -2, 1) * c.acc.Mb.val ∧ c'.P.val = u.factor (2, -3, 1) * c.P.val ∧
          c'.C.isSome = c.C.isSome ∧ ∀ C C', c.C = some C → c'.C = some C' →
            C'.CP.val = C.CP.val ∧ C'.CT.val = C.CT.val ∧ C'.CY.val = C.CY.val ∧ C'.CZ.val = C.CZ.val ∧ C'.CQ.val = C.CQ.val ∧
            C'.CMy.val = C.CMy.val ∧ C'.CMz.val = C.CMz.val ∧ C'.CMb.val = C.CMb.val) o.conds o'.conds)
        (evaluate bq R cs co).2
        (evaluate bq R' (cs.map fun c : Cond ℝ => ⟨u.factor (1, -1, 0) * c.Uinf, u.factor (0, -1, 0) * c.Omega, c.pitch⟩) co).2)
      x.build
      ({ x with
        r := fun i => u.factor (1, 0, 0) * x.r i
        chord := fun i => u.factor (1, 0, 0) * x.chord i
        Rhub := u.factor (1, 0, 0) * x.Rhub
        Rtip := u.factor (1, 0, 0) * x.Rtip
        rho := u.factor (-3, 0, 1) * x.rho
        mu := u.factor (-1, -1, 1) * x.mu
        hubHt := u.factor (1, 0, 0) * x.hubHt
        precurve := x.precurve.map fun (f : ℕ → ℝ) i => u.factor (1, 0, 0) * f i
        precurveTip := u.factor (1, 0, 0) * x.precurveTip
        presweep := x.presweep.map fun (f : ℕ → ℝ) i => u.factor (1, 0, 0) * f i
        presweepTip := u.factor (1, 0, 0) * x.presweepTip } : CCArgs ℝ).build := by
  simp only [factor_len, factor_vel, factor_rate, factor_dens, factor_visc, factor_line, factor_force, factor_moment, factor_power]
  refine (build_units u x).mono fun R R' h => ⟨fun U Om pitch az => ?_, fun cs co => ?_⟩
  · refine (distributedAeroLoads_units bq h U Om pitch az).2.mono fun L L' hL => hL.imp fun s s' hs => ?_
    exact ⟨hs.phi, hs.theta, hs.loads.a, hs.loads.ap, hs.loads.alpha, hs.loads.cl, hs.loads.cd, hs.loads.Re, hs.loads.W, hs.loads.Np,
      hs.loads.Tp⟩
  · refine (evaluate_units bq h cs co).2.mono fun o o' ho => ⟨fun i => by rw [ho.W], ho.conds.imp fun c c' hc => ?_⟩
    refine ⟨hc.acc.T, hc.acc.Y, hc.acc.Z, hc.acc.Q, hc.acc.My, hc.acc.Mz, hc.acc.Mb, hc.P, ?_, fun C C' e e' => ?_⟩
    · rcases hc.C with ⟨e, e'⟩ | ⟨C, C', e, e', -⟩ <;> rw [e, e']
      rfl
    · rcases hc.C with ⟨e1, -⟩ | ⟨C1, C1', e1, e1', hC⟩
      · rw [e1] at e; cases e
      · obtain rfl : C1 = C := Option.some.inj (e1.symm.trans e)
        obtain rfl : C1' = C' := Option.some.inj (e1'.symm.trans e')
        exact ⟨hC.CP, hC.CT, hC.CY, hC.CZ, hC.CQ, hC.CMy, hC.CMz, hC.CMb⟩

/-! ## The components -/

theorem AfTables.times_one {k : String → ℝ} (t : AfTables ℝ) (h1 : k "airfoils_aoa" = 1) (h2 : k "airfoils_Re" = 1)
    (h3 : k "airfoils_cl" = 1) (h4 : k "airfoils_cd" = 1) (h5 : k "airfoils_cm" = 1) : t.times k = t := by
  simp only [AfTables.times, h1, h2, h3, h4, h5, one_mul]

/-- **C99** `CCBladeGeometry`: inputs converted according to the announced units give outputs converted according to theirs. -/
theorem geometry_any_units (u : Units) (x : GeomIn ℝ) :
    ExRel (fun o o' : GeomOut ℝ => o'.R = u.declared geomUnits "R" * o.R ∧ o'.diameter = u.declared geomUnits "diameter" * o.diameter ∧
        o'.precurveTip = u.declared geomUnits "precurveTip" * o.precurveTip ∧
        o'.presweepTip = u.declared geomUnits "presweepTip" * o.presweepTip)
      x.compute (x.times (u.declared geomUnits)).compute := by
  have hm : ∀ v, geomUnits.lookup v = some (some "m") → u.declared geomUnits v = u.L := fun v hv => by
    rw [declared_unit u hv rfl, factor_len]
  have ha : ∀ v, geomUnits.lookup v = some (some "deg") → u.declared geomUnits v = 1 := fun v hv => by
    rw [declared_unit u hv rfl, factor_one]
  simp only [GeomIn.times, GeomIn.compute, hm "Rtip" rfl, hm "precurve_in" rfl, hm "presweep_in" rfl, ha "precone" rfl, hm "R" rfl,
    hm "diameter" rfl, hm "precurveTip" rfl, hm "presweepTip" rfl, one_mul]
  split_ifs
  · exact .error _
  · exact .ok ⟨by ring, by ring, rfl, rfl⟩

example : ∃ o, (⟨3, 60, fun i => i, fun _ => 0, 0⟩ : GeomIn ℝ).compute = .ok o ∧ o.R ≠ 0 := by
  refine ⟨_, rfl, ?_⟩
  norm_num [cosd, sind, num_real]

theorem loads_declared (u : Units) : (∀ v, loadsUnits.lookup v = some (some "m") → u.declared loadsUnits v = u.L) ∧
    (∀ v, loadsUnits.lookup v = some (some "deg") → u.declared loadsUnits v = 1) ∧
    (∀ v, loadsUnits.lookup v = some none → u.declared loadsUnits v = 1) ∧
    u.declared loadsUnits "V_load" = u.vel ∧ u.declared loadsUnits "Omega_load" = u.rate ∧ u.declared loadsUnits "rho" = u.dens ∧
    u.declared loadsUnits "mu" = u.visc := by
  refine ⟨fun v hv => ?_, fun v hv => ?_, fun v hv => declared_none u hv, ?_, ?_, ?_, ?_⟩
  · rw [declared_unit u hv rfl, factor_len]
  · rw [declared_unit u hv rfl, factor_one]
  · rw [declared_unit u (s := "m/s") rfl rfl, factor_vel]
  · rw [declared_unit u (s := "rpm") rfl rfl, factor_rate]
  · rw [declared_unit u (s := "kg/m**3") rfl rfl, factor_dens]
  · rw [declared_unit u (s := "kg/(m*s)") rfl rfl, factor_visc]

/-- **C99** `CCBladeLoads`: inputs converted according to the announced units give the same exception or outputs converted according
to theirs. -/
theorem loads_component_any_units (u : Units) (fit : SplineFit ℝ) (bq : RootFinder ℝ) (S : LoadsState ℝ) (x : LoadsIn ℝ) :
    ExRel (fun o o' : LoadsCompOut ℝ => ∀ i, o'.loads_r i = u.declared loadsUnits "loads_r" * o.loads_r i ∧
        o'.loads_Px i = u.declared loadsUnits "loads_Px" * o.loads_Px i ∧ o'.loads_Py i = u.declared loadsUnits "loads_Py" * o.loads_Py i ∧
        o'.loads_Pz i = u.declared loadsUnits "loads_Pz" * o.loads_Pz i)
      (loadsCompute fit bq S x).2 (loadsCompute fit bq S (x.times (u.declared loadsUnits))).2 := by
  obtain ⟨hm, ha, hn, hV, hO, hrho, hmu⟩ := loads_declared u
  have hl : ∀ v, loadsUnits.lookup v = some (some "N/m") → u.declared loadsUnits v = u.line := fun v hv => by
    rw [declared_unit u hv rfl, factor_line]
  rw [hm "loads_r" rfl, hl "loads_Px" rfl, hl "loads_Py" rfl, hl "loads_Pz" rfl]
  have haf : (x.blade.af.times (u.declared loadsUnits)) = x.blade.af :=
    x.blade.af.times_one (ha _ rfl) (hn _ rfl) (hn _ rfl) (hn _ rfl) (hn _ rfl)
  have hargs : ∀ afs, (x.times (u.declared loadsUnits)).args afs = (x.args afs).conv u := fun afs => by
    simp only [LoadsIn.args, LoadsIn.times, BladeIn.args, BladeIn.times, CCArgs.conv, hm "r" rfl, hm "chord" rfl, hm "Rhub" rfl,
      hm "Rtip" rfl, hm "hub_height" rfl, ha "precone" rfl, ha "tilt" rfl, ha "yaw" rfl, hm "precurve" rfl, hm "precurveTip" rfl, hrho,
      hmu, hn "shearExp" rfl, ha "theta" rfl, one_mul, Option.map_some, Option.map_none, mul_zero]
  have hcall : (x.times (u.declared loadsUnits)).V_load = u.vel * x.V_load ∧
      (x.times (u.declared loadsUnits)).Omega_load = u.rate * x.Omega_load ∧
      (x.times (u.declared loadsUnits)).pitch_load = x.pitch_load ∧ (x.times (u.declared loadsUnits)).azimuth_load = x.azimuth_load := by
    simp only [LoadsIn.times, hV, hO, ha "pitch_load" rfl, ha "azimuth_load" rfl, one_mul, and_self]
  have hr : (x.times (u.declared loadsUnits)).blade.r = fun i => u.L * x.blade.r i := by
    simp only [LoadsIn.times, BladeIn.times, hm "r" rfl]
  have hb : (x.times (u.declared loadsUnits)).blade.af = x.blade.af := haf
  have hnn : (x.times (u.declared loadsUnits)).blade.n = x.blade.n := rfl
  unfold loadsCompute
  simp only [hb, hnn, hargs, hcall, hr]
  cases x.blade.af.airfoils fit 0 x.blade.n with
  | error e => exact .error e
  | ok afs =>
    simp only
    have hB := build_units u (x.args afs)
    generalize (x.args afs).build = A at hB
    generalize ((x.args afs).conv u).build = A' at hB
    cases hB with
    | error e => exact .error e
    | @ok R R' hR =>
      simp only
      have hD := (distributedAeroLoads_units bq hR x.V_load x.Omega_load x.pitch_load x.azimuth_load).2
      generalize (distributedAeroLoads bq R x.V_load x.Omega_load x.pitch_load x.azimuth_load).2 = D at hD
      generalize (distributedAeroLoads bq R' (u.vel * x.V_load) (u.rate * x.Omega_load) x.pitch_load x.azimuth_load).2 = D' at hD
      cases hD with
      | error e => exact .error e
      | @ok L L' hL =>
        have hN := stationArr_units hL SecLoads.Np u.line fun v v' hv => hv.Np
        have hT := stationArr_units hL SecLoads.Tp u.line fun v v' hv => hv.Tp
        refine .ok fun i => ⟨rfl, ?_, ?_, ?_⟩
        · simp only [hN]
        · simp only [hT, mul_neg]
        · simp

/-! ### `CCBladeEvaluate` -/

theorem eval_times (u : Units) (x : EvalIn ℝ) (afs : List (CCAf ℝ)) (d : Bool) :
    (x.times (u.declared evalUnits)).blade.af = x.blade.af ∧
    (x.times (u.declared evalUnits)).blade.args (x.times (u.declared evalUnits)).theta afs d = (x.blade.args x.theta afs d).conv u ∧
    (⟨(x.times (u.declared evalUnits)).V_load, (x.times (u.declared evalUnits)).Omega_load,
      (x.times (u.declared evalUnits)).pitch_load⟩ : Cond ℝ) = Cond.conv u ⟨x.V_load, x.Omega_load, x.pitch_load⟩ := by
  have hm : ∀ v, evalUnits.lookup v = some (some "m") → u.declared evalUnits v = u.L := fun v hv => by
    rw [declared_unit u hv rfl, factor_len]
  have ha : ∀ v, evalUnits.lookup v = some (some "deg") → u.declared evalUnits v = 1 := fun v hv => by
    rw [declared_unit u hv rfl, factor_one]
  have hn : ∀ v, evalUnits.lookup v = some none → u.declared evalUnits v = 1 := fun v hv => declared_none u hv
  have hV : u.declared evalUnits "V_load" = u.vel := by rw [declared_unit u (s := "m/s") rfl rfl, factor_vel]
  have hO : u.declared evalUnits "Omega_load" = u.rate := by rw [declared_unit u (s := "rpm") rfl rfl, factor_rate]
  have hrho : u.declared evalUnits "rho" = u.dens := by rw [declared_unit u (s := "kg/m**3") rfl rfl, factor_dens]
  have hmu : u.declared evalUnits "mu" = u.visc := by rw [declared_unit u (s := "kg/(m*s)") rfl rfl, factor_visc]
  refine ⟨x.blade.af.times_one (ha _ rfl) (hn _ rfl) (hn _ rfl) (hn _ rfl) (hn _ rfl), ?_, ?_⟩
  · simp only [EvalIn.times, BladeIn.args, BladeIn.times, CCArgs.conv, hm "r" rfl, hm "chord" rfl, hm "Rhub" rfl,
      hm "Rtip" rfl, hm "hub_height" rfl, ha "precone" rfl, ha "tilt" rfl, ha "yaw" rfl, hm "precurve" rfl, hm "precurveTip" rfl,
      hm "presweep" rfl, hm "presweepTip" rfl, hrho, hmu, hn "shearExp" rfl, ha "theta" rfl, one_mul, Option.map_some]
  · simp only [EvalIn.times, Cond.conv, hV, hO, ha "pitch_load" rfl, one_mul]

theorem eval_run_units (u : Units) (fit : SplineFit ℝ) (bq : RootFinder ℝ) (x : EvalIn ℝ) (d : Bool) :
    ExRel (EvalOut.Conv u) (x.run fit bq d) ((x.times (u.declared evalUnits)).run fit bq d) := by
  unfold EvalIn.run
  rw [(eval_times u x [] d).1, (eval_times u x [] d).2.2]
  refine ExRel.bind (ExRel.refl (r := Eq) (fun _ => rfl) _) fun afs _ e => ?_
  cases e
  rw [(eval_times u x afs d).2.1]
  exact (build_units u _).bind fun R R' h => (evaluate_units bq h _ true).2

/-- **C99** `CCBladeEvaluate`: inputs converted according to the announced units give the same exception or outputs converted
according to theirs, except for the root bending moment `Mb`, which is converted like the other moments although announced in N/m.
What is missing is the conversion of `Mb` as announced, which fails (`evaluate_component_Mb_false`). -/
theorem evaluate_component_any_units_partial (u : Units) (fit : SplineFit ℝ) (bq : RootFinder ℝ) (x : EvalIn ℝ) :
    ExRel (fun o o' : EvalCompOut ℝ => (∀ name ∈ ["P", "Fhub", "Mhub", "CP", "CMb", "CFhub", "CMhub"], ∀ i < 3,
        o'.get name i = u.declared evalUnits name * o.get name i) ∧ o'.Mb = u.declared evalUnits "Mhub" * o.Mb)
      (x.compute fit bq) ((x.times (u.declared evalUnits)).compute fit bq) := by
  have hn : ∀ v, evalUnits.lookup v = some none → u.declared evalUnits v = 1 := fun v hv => declared_none u hv
  have hP : u.declared evalUnits "P" = u.power := by rw [declared_unit u (s := "W") rfl rfl, factor_power]
  have hF : u.declared evalUnits "Fhub" = u.force := by rw [declared_unit u (s := "N") rfl rfl, factor_force]
  have hM : u.declared evalUnits "Mhub" = u.moment := by rw [declared_unit u (s := "N*m") rfl rfl, factor_moment]
  unfold EvalIn.compute
  refine (eval_run_units u fit bq x false).bind fun o o' h => ?_
  have hc := h.conds
  generalize o.conds = l at hc
  generalize o'.conds = l' at hc
  cases hc with
  | nil => exact .error _
  | @cons c c' _ _ h1 _ =>
    simp only [pyFirst, Bind.bind, Except.bind]
    rcases h1.C with ⟨e, e'⟩ | ⟨C, C', e, e', hC⟩
    · rw [e, e']; exact .error _
    · rw [e, e']
      refine .ok ⟨?_, ?_⟩
      · simp only [List.mem_cons, List.not_mem_nil, or_false, forall_eq_or_imp, forall_eq]
        rw [hP, hF, hM, hn "CP" rfl, hn "CMb" rfl, hn "CFhub" rfl, hn "CMhub" rfl]
        refine ⟨fun i hi => h1.P, fun i hi => ?_, fun i hi => ?_, fun i hi => ?_, fun i hi => ?_, fun i hi => ?_, fun i hi => ?_⟩
        · interval_cases i
          exacts [h1.acc.T, h1.acc.Y, h1.acc.Z]
        · interval_cases i
          exacts [h1.acc.Q, h1.acc.My, h1.acc.Mz]
        · rw [one_mul]; exact hC.CP
        · rw [one_mul]; exact hC.CMb
        · rw [one_mul]
          interval_cases i
          exacts [hC.CT, hC.CY, hC.CZ]
        · rw [one_mul]
          interval_cases i
          exacts [hC.CQ, hC.CMy, hC.CMz]
      · rw [hM]; exact h1.acc.Mb

/-- The root bending moment of the blade `tipEval` is positive. -/
theorem tipEval_Mb : ∃ out, (tipEval.withDesign (tipCurve 0)).compute cornerFit plainBq = .ok out ∧ 0 < out.Mb := by
  obtain ⟨o, afs, g1, g3, ho, -⟩ := tipEval_run
  obtain ⟨out, J, h1, -, h3, -⟩ := evaluate_component _ _ _ _ (ho 0)
  refine ⟨out, h1, ?_⟩
  have hMb : out.Mb = outputAt (o 0) (fun x => x.acc.Mb) 0 := (h3 ("Mb", 0, fun x => x.acc.Mb) (by simp [evalOutputs])).1
  obtain ⟨afs', R, e1, e2, e3⟩ := EvalIn.run_inv (ho 0)
  obtain rfl : afs = afs' := Except.ok.inj (g1.symm.trans e1)
  obtain rfl := Except.ok.inj ((tipEval_build 0 afs).symm.trans e2)
  obtain ⟨acc, ha, hc⟩ := evaluate_one e3
  obtain ⟨-, L, -, hL⟩ := tipCurve_calls 1 (by norm_num)
  have hLs : ∀ k : ℕ, k < 1 → ((tipCurve 0).cond 0 ((k : ℝ) * (360 / ((1 : ℕ) : ℝ)))).call plainBq { tipRotor with af := afList afs } = .ok L := by
    intro k hk
    obtain rfl : k = 0 := by omega
    have h1 := hL 0 0
    rw [Design.call] at h1 ⊢
    rw [← h1, ← loads_af _ (((tipCurve 0).cond 0 0).rotor tipRotor) (afList afs) (tipEval_af g3 _ rfl rfl), Nat.cast_zero, zero_mul]
    rfl
  have hM := (RotorDesign.acc_sum (D := tipCurve 0) (m := 0) (R := { tipRotor with af := afList afs }) ha (fun _ => L) hLs).2.2.2.2.2.2
  have hNp : ∀ i < 3, 0 < stationArr L.stations SecLoads.Np i := by
    intro i hi
    have h0 := hL 0 0
    rw [Design.call, tipCurve_rotor] at h0
    obtain ⟨-, l2⟩ := solveStations_ok (distributedAeroLoads_stations (Prod.ext rfl h0))
    obtain ⟨st, e1, e2⟩ := l2 i hi
    obtain ⟨st', e3, e4⟩ := tipRotor_station 0 i hi
    have : st = st' := Except.ok.inj (e2.symm.trans e3)
    simp only [stationArr, e1, Option.map_some, Option.getD_some, this, e4]
  have h0 := hNp 0 (by norm_num)
  have h1 := hNp 1 (by norm_num)
  have h2 := hNp 2 (by norm_num)
  have hval : ∀ (R' : Rotor ℝ) J L v w, (bladeQuant R' J L v w).val = v := by
    intro R' J L v w
    simp only [bladeQuant]
    generalize (if R'.derivatives = true then J else none) = j
    cases j <;> rfl
  have hblade : (bladeInt ((tipCurve 0).rotor { tipRotor with af := afList afs }) L).M
      = trapz 4 (fun i => padded 3 0 (stationArr L.stations SecLoads.Np) 0 i
      * (defineCurvature 5 (padded 3 (2 : ℝ) (fun j : ℕ => 10 + 20 * (j : ℝ)) 60) (padded 3 0 (fun _ => 0) 0)
      (padded 3 0 (fun _ => 0) 0) 0).z_az i) (defineCurvature 5 (padded 3 (2 : ℝ) (fun j : ℕ => 10 + 20 * (j : ℝ)) 60)
      (padded 3 0 (fun _ => 0) 0) (padded 3 0 (fun _ => 0) 0) 0).s := by
    simp only [bladeInt, thrustTorque, RotorDesign.rotor, tipCurve, mul_zero, zero_mul, num_real]
    rfl
  have hpos : 0 < (bladeInt ((tipCurve 0).rotor { tipRotor with af := afList afs }) L).M := by
    rw [hblade]
    simp only [trapz, num_real, sum_range_succ, sum_range_zero]
    generalize stationArr L.stations SecLoads.Np = Np at h0 h1 h2 ⊢
    simp [padded, defineCurvature, zAz, pathLength, segLength, num_real]
    norm_num
    positivity
  rw [hMb]
  simp only [outputAt, hc, List.getElem?_cons_zero, Option.map_some, Option.getD_some, hM]
  simp only [Quant.sum, show tipRotor.nSector = 1 from rfl, sum_range_succ, sum_range_zero, Quant.map2, hval]
  rw [zero_add]
  exact div_pos hpos (by norm_num)

/-- **C99** fails for the root bending moment: announced in N/m, it changes like a moment.  (The example: a blade described in
centimetres, whose moment is 10⁴ times the number announced to be independent of the unit of length.) -/
theorem evaluate_component_Mb_false : ¬ ∀ (u : Units) (fit : SplineFit ℝ) (bq : RootFinder ℝ) (x : EvalIn ℝ),
    ExRel (fun o o' : EvalCompOut ℝ => o'.Mb = u.declared evalUnits "Mb" * o.Mb)
      (x.compute fit bq) ((x.times (u.declared evalUnits)).compute fit bq) := by
  intro hall
  obtain ⟨out, h1, h2⟩ := tipEval_Mb
  set u : Units := ⟨100, 1, 1, by norm_num, by norm_num, by norm_num⟩ with hu
  have a := hall u cornerFit plainBq (tipEval.withDesign (tipCurve 0))
  have b := evaluate_component_any_units_partial u cornerFit plainBq (tipEval.withDesign (tipCurve 0))
  rw [h1] at a b
  generalize ((tipEval.withDesign (tipCurve 0)).times (u.declared evalUnits)).compute cornerFit plainBq = y at a b
  cases a with
  | ok a =>
    cases b with
    | ok b =>
      have hM : u.declared evalUnits "Mhub" = u.moment := by rw [declared_unit u (s := "N*m") rfl rfl, factor_moment]
      have hB : u.declared evalUnits "Mb" = u.line := by rw [declared_unit u (s := "N/m") rfl rfl, factor_line]
      have e := a.symm.trans b.2
      rw [hM, hB] at e
      norm_num [Units.moment, Units.line, hu] at e
      linarith

/-! ### `CCBladeTwist` -/

/-- The inputs of `CCBladeTwist` in the new units -/
noncomputable def TwistIn.conv (u : Units) (x : TwistIn ℝ) : TwistIn ℝ :=
  { x with
    blade := { x.blade with
      r := fun i => u.L * x.blade.r i
      chord := fun i => u.L * x.blade.chord i
      Rhub := u.L * x.blade.Rhub
      Rtip := u.L * x.blade.Rtip
      hub_height := u.L * x.blade.hub_height
      precurve := fun i => u.L * x.blade.precurve i
      precurveTip := u.L * x.blade.precurveTip
      presweep := fun i => u.L * x.blade.presweep i
      presweepTip := u.L * x.blade.presweepTip
      rho := u.dens * x.blade.rho
      mu := u.visc * x.blade.mu }
    Uhub := u.vel * x.Uhub }

theorem twist_times (u : Units) (x : TwistIn ℝ) : x.times (u.declared twistUnits) = x.conv u := by
  have hm : ∀ v, twistUnits.lookup v = some (some "m") → u.declared twistUnits v = u.L := fun v hv => by
    rw [declared_unit u hv rfl, factor_len]
  have ha : ∀ v, twistUnits.lookup v = some (some "deg") → u.declared twistUnits v = 1 := fun v hv => by
    rw [declared_unit u hv rfl, factor_one]
  have hb : ∀ v, twistUnits.lookup v = some (some "rad") → u.declared twistUnits v = 1 := fun v hv => by
    rw [declared_unit u hv rfl, factor_one]
  have hn : ∀ v, twistUnits.lookup v = some none → u.declared twistUnits v = 1 := fun v hv => declared_none u hv
  have hV : u.declared twistUnits "Uhub" = u.vel := by rw [declared_unit u (s := "m/s") rfl rfl, factor_vel]
  have hrho : u.declared twistUnits "rho" = u.dens := by rw [declared_unit u (s := "kg/m**3") rfl rfl, factor_dens]
  have hmu : u.declared twistUnits "mu" = u.visc := by rw [declared_unit u (s := "kg/(m*s)") rfl rfl, factor_visc]
  have haf : x.blade.af.times (u.declared twistUnits) = x.blade.af :=
    x.blade.af.times_one (ha _ rfl) (hn _ rfl) (hn _ rfl) (hn _ rfl) (hn _ rfl)
  simp only [TwistIn.times, BladeIn.times, TwistIn.conv, haf, hm "r" rfl, hm "chord" rfl, hm "Rhub" rfl,
    hm "Rtip" rfl, hm "hub_height" rfl, ha "precone" rfl, ha "tilt" rfl, ha "yaw" rfl, hm "precurve" rfl, hm "precurveTip" rfl,
    hm "presweep" rfl, hm "presweepTip" rfl, hrho, hmu, hV, hn "shearExp" rfl, hn "tsr" rfl, ha "pitch" rfl, hn "s_opt_theta" rfl,
    hb "theta_in" rfl, hb "aoa_op" rfl, hn "rthick" rfl, one_mul]

theorem twist_Omega_units (u : Units) (x : TwistIn ℝ) : (x.conv u).Omega = u.rate * x.Omega := by
  have h := mul_inv_cancel₀ u.neL
  simp only [TwistIn.Omega, TwistIn.conv, Units.vel, Units.rate, num_real, div_eq_mul_inv, mul_inv]
  linear_combination (u.T⁻¹ * x.tsr * x.Uhub * (x.blade.r (x.blade.n - 1))⁻¹ * 30 * Real.pi⁻¹) * h

theorem twist_Re_units (u : Units) (x : TwistIn ℝ) (i : ℕ) : (x.conv u).Re i = x.Re i := by
  have hk : u.rate * u.L * u.L * u.dens / u.visc = 1 := by
    have := u.neL; have := u.neT; have := u.neM
    simp only [Units.rate, Units.dens, Units.visc]
    field_simp
  have e : (x.conv u).Re i = (u.rate * u.L * u.L * u.dens / u.visc) * x.Re i := by
    simp only [TwistIn.Re, twist_Omega_units]
    simp only [TwistIn.conv, div_eq_mul_inv, mul_inv]
    ring
  rw [e, hk, one_mul]

theorem twist_s_units (u : Units) (x : TwistIn ℝ) : (x.conv u).s = x.s := by
  funext i
  simp only [TwistIn.s, TwistIn.conv, ← mul_sub]
  exact mul_div_mul_left _ _ u.neL

theorem twist_sections_units (u : Units) (x : TwistIn ℝ) (afs : List (CCAf ℝ)) : ∀ k, (x.conv u).sections afs k = x.sections afs k
  | 0 => rfl
  | k + 1 => by
    simp only [TwistIn.sections, twist_sections_units u x afs k, twist_Re_units]
    rfl

theorem twist_inverse_units (bq : RootFinder ℝ) (u : Units) (x : TwistIn ℝ) (afs : List (CCAf ℝ)) {R R' : Rotor ℝ} (h : R.Conv u R') :
    ExRel Eq (x.inverseTheta bq afs R) ((x.conv u).inverseTheta bq afs R') := by
  unfold TwistIn.inverseTheta
  have e1 : (x.conv u).sections afs (x.conv u).blade.n = x.sections afs x.blade.n := twist_sections_units u x afs _
  have e2 : firstThin (x.conv u).rthick 0 (x.conv u).blade.n = firstThin x.rthick 0 x.blade.n := rfl
  have e3 : ([⟨(x.conv u).Uhub, (x.conv u).Omega, (x.conv u).pitch⟩] : List (Cond ℝ))
      = [(⟨x.Uhub, x.Omega, x.pitch⟩ : Cond ℝ)].map (Cond.conv u) := by
    rw [twist_Omega_units]; rfl
  rw [e1, e2, e3]
  refine ExRel.bind (ExRel.refl (r := Eq) (fun _ => rfl) _) fun sec _ e => ?_
  cases e
  refine ExRel.bind (ExRel.refl (r := Eq) (fun _ => rfl) _) fun idx _ e => ?_
  cases e
  simp only
  generalize (some (InvData.mk _ _ _) : Option (InvData ℝ)) = inv
  have hR : Rotor.Conv u { R with inv := inv } { R' with inv := inv } :=
    ⟨h.n, h.r, h.chord, h.theta, h.af, h.Rhub, h.Rtip, h.B, h.rho, h.mu, h.precone, h.tilt, h.yaw, h.shearExp, h.hubHt, h.opts,
      h.iterRe, h.derivatives, h.precurve, h.precurveTip, h.presweep, h.presweepTip, h.rotorR, h.nSector, rfl⟩
  obtain ⟨g1, g2⟩ := evaluate_units bq hR [(⟨x.Uhub, x.Omega, x.pitch⟩ : Cond ℝ)] false
  refine g2.bind fun o o' _ => ?_
  rw [g1.theta]
  exact .ok rfl

theorem twist_smooth_units (pchip : Pchip ℝ) (u : Units) (x : TwistIn ℝ) (theta : ℕ → ℝ) :
    (x.conv u).smooth pchip theta = x.smooth pchip theta := by
  simp only [TwistIn.smooth, twist_s_units]
  rfl

theorem twist_twist_units (bq : RootFinder ℝ) (pchip : Pchip ℝ) (u : Units) (x : TwistIn ℝ) (afs : List (CCAf ℝ)) {R R' : Rotor ℝ}
    (h : R.Conv u R') : ExRel Eq (x.twist bq pchip afs R) ((x.conv u).twist bq pchip afs R') := by
  unfold TwistIn.twist
  have e1 : (x.conv u).inverse = x.inverse := rfl
  have e2 : (x.conv u).optimize = x.optimize := rfl
  have e3 : (x.conv u).inn_af = x.inn_af := rfl
  rw [e1, e2, e3]
  split_ifs
  · exact .error _
  · refine (twist_inverse_units bq u x afs h).bind fun th _ e => ?_
    cases e
    rw [twist_smooth_units]
    exact ExRel.refl (fun _ => rfl) _
  · refine (twist_inverse_units bq u x afs h).bind fun th _ e => ?_
    cases e
    exact .ok rfl
  · exact .ok rfl

theorem interpFrom_units (x k : ℝ) : ∀ (l : List (ℝ × ℝ)) (p : ℝ × ℝ),
    interpFrom x (p.1, k * p.2) (l.map fun q => (q.1, k * q.2)) = k * interpFrom x p l
  | [], p => rfl
  | q :: l, p => by
    simp only [List.map_cons, interpFrom]
    split_ifs
    · ring
    · exact interpFrom_units x k l q

theorem npInterps_units (n : ℕ) (xs : List ℝ) (k : ℝ) (X Y : ℕ → ℝ) :
    ExRel (fun y y' => y' = y.map (k * ·)) (npInterps xs (arr n X) (arr n Y)) (npInterps xs (arr n X) (arr n fun i => k * Y i)) := by
  have hz : (arr n X).zip (arr n fun i => k * Y i) = ((arr n X).zip (arr n Y)).map fun q => (q.1, k * q.2) := by
    rw [arr_zip, arr_zip, arr_map]
  unfold npInterps
  rw [if_pos (by simp [arr]), if_pos (by simp [arr]), hz]
  cases (arr n X).zip (arr n Y) with
  | nil => exact .error _
  | cons p l =>
    refine .ok ?_
    simp only [List.map_map]
    refine List.map_congr_left fun x _ => ?_
    simp only [Function.comp]
    split_ifs
    · rfl
    · exact interpFrom_units x k l p

/-- **C99** `CCBladeTwist`: inputs converted according to the announced units give the same exception or outputs converted according
to theirs, with the twist prescribed or found by the inverse analysis, smoothed or not, whatever the interpolants are. -/
theorem twist_component_any_units (u : Units) (fit : SplineFit ℝ) (bq : RootFinder ℝ) (pchip : Pchip ℝ) (x : TwistIn ℝ) :
    ExRel (fun o o' : TwistOut ℝ =>
        (∀ q ∈ ([("theta", TwistOut.theta), ("local_airfoil_velocities", TwistOut.velocities), ("a", TwistOut.a), ("ap", TwistOut.ap),
            ("alpha", TwistOut.alpha), ("cl", TwistOut.cl), ("cd", TwistOut.cd), ("Px_b", TwistOut.Px_b), ("Py_b", TwistOut.Py_b),
            ("Pz_b", TwistOut.Pz_b), ("Px_af", TwistOut.Px_af), ("Py_af", TwistOut.Py_af), ("Pz_af", TwistOut.Pz_af),
            ("LiftF", TwistOut.LiftF), ("DragF", TwistOut.DragF)] : List (String × (TwistOut ℝ → ℕ → ℝ))),
          ∀ i, q.2 o' i = u.declared twistUnits q.1 * q.2 o i) ∧
        (∀ q ∈ ([("CP", TwistOut.CP), ("CM", TwistOut.CM), ("P", TwistOut.P), ("T", TwistOut.T), ("Q", TwistOut.Q),
            ("M", TwistOut.M)] : List (String × (TwistOut ℝ → ℝ))), q.2 o' = u.declared twistUnits q.1 * q.2 o) ∧
        ∀ q ∈ ([("cl_n_opt", TwistOut.cl_n_opt), ("cd_n_opt", TwistOut.cd_n_opt), ("L_n_opt", TwistOut.L_n_opt),
            ("D_n_opt", TwistOut.D_n_opt)] : List (String × (TwistOut ℝ → List ℝ))),
          q.2 o' = (q.2 o).map (u.declared twistUnits q.1 * ·))
      (x.compute fit bq pchip) ((x.times (u.declared twistUnits)).compute fit bq pchip) := by
  have hl : ∀ v, twistUnits.lookup v = some (some "N/m") → u.declared twistUnits v = u.line := fun v hv => by
    rw [declared_unit u hv rfl, factor_line]
  have hn : ∀ v, twistUnits.lookup v = some none → u.declared twistUnits v = 1 := fun v hv => declared_none u hv
  have hrad : u.declared twistUnits "theta" = 1 := by rw [declared_unit u (s := "rad") rfl rfl, factor_one]
  have hdeg : u.declared twistUnits "alpha" = 1 := by rw [declared_unit u (s := "deg") rfl rfl, factor_one]
  have hW : u.declared twistUnits "local_airfoil_velocities" = u.vel := by rw [declared_unit u (s := "m/s") rfl rfl, factor_vel]
  simp only [List.mem_cons, List.not_mem_nil, or_false, forall_eq_or_imp, forall_eq, hl "Px_b" rfl, hl "Py_b" rfl, hl "Pz_b" rfl,
    hl "Px_af" rfl, hl "Py_af" rfl, hl "Pz_af" rfl, hl "LiftF" rfl, hl "DragF" rfl, hl "L_n_opt" rfl, hl "D_n_opt" rfl, hn "CP" rfl,
    hn "CM" rfl, hn "a" rfl, hn "ap" rfl, hn "cl" rfl, hn "cd" rfl, hn "cl_n_opt" rfl, hn "cd_n_opt" rfl, hrad, hdeg, hW, twist_times]
  unfold TwistIn.compute
  have e1 : (x.conv u).blade.af = x.blade.af := rfl
  have e2 : (x.conv u).blade.n = x.blade.n := rfl
  have e3 : ∀ afs, (x.conv u).blade.args (fun _ => 0) afs false = (x.blade.args (fun _ => 0) afs false).conv u := fun _ => rfl
  have e4 : (x.conv u).Uhub = u.vel * x.Uhub := rfl
  have e5 : (x.conv u).pitch = x.pitch := rfl
  have e6 : (x.conv u).nOpt = x.nOpt := rfl
  have e7 : (x.conv u).s_opt_theta = x.s_opt_theta := rfl
  have ec : ([⟨u.vel * x.Uhub, u.rate * x.Omega, x.pitch⟩] : List (Cond ℝ))
      = [(⟨x.Uhub, x.Omega, x.pitch⟩ : Cond ℝ)].map (Cond.conv u) := rfl
  simp only [e1, e2, e3, e4, e5, e6, e7, twist_Omega_units, twist_s_units, ec]
  refine ExRel.bind (ExRel.refl (r := Eq) (fun _ => rfl) _) fun afs _ e => ?_
  cases e
  refine (build_units u _).bind fun R R' h => ?_
  refine (twist_twist_units bq pchip u x afs h).bind fun th _ e => ?_
  cases e
  have hR : Rotor.Conv u { R with theta := th } { R' with theta := th } :=
    ⟨h.n, h.r, h.chord, rfl, h.af, h.Rhub, h.Rtip, h.B, h.rho, h.mu, h.precone, h.tilt, h.yaw, h.shearExp, h.hubHt, h.opts,
      h.iterRe, h.derivatives, h.precurve, h.precurveTip, h.presweep, h.presweepTip, h.rotorR, h.nSector, h.inv⟩
  obtain ⟨g1, g2⟩ := distributedAeroLoads_units bq hR x.Uhub x.Omega x.pitch 0
  refine g2.bind fun L L' hL => ?_
  refine (evaluate_units bq g1 [(⟨x.Uhub, x.Omega, x.pitch⟩ : Cond ℝ)] true).2.bind fun o o' ho => ?_
  have hW' := ho.W
  have hc := ho.conds
  generalize o.conds = l at hc
  generalize o'.conds = l' at hc
  cases hc with
  | nil => exact .error _
  | @cons c c' _ _ h1 _ =>
    simp only [pyFirst, Bind.bind, Except.bind]
    rcases h1.C with ⟨e, e'⟩ | ⟨C, C', e, e', hC⟩
    · rw [e, e']; exact .error _
    · rw [e, e']
      simp only
      have s1 : ∀ (f : SecLoads ℝ → ℝ), (∀ v v', SecLoads.Conv u v v' → f v' = f v) →
          stationArr L'.stations f = stationArr L.stations f := fun f hf => by
        rw [stationArr_units hL f 1 fun v v' hv => by rw [one_mul]; exact hf v v' hv]; simp only [one_mul]
      have hN := stationArr_units hL SecLoads.Np u.line fun v v' hv => hv.Np
      have hT := stationArr_units hL SecLoads.Tp u.line fun v v' hv => hv.Tp
      rw [hN, hT, s1 SecLoads.a fun _ _ hv => hv.a, s1 SecLoads.ap fun _ _ hv => hv.ap, s1 SecLoads.alpha fun _ _ hv => hv.alpha,
        s1 SecLoads.cl fun _ _ hv => hv.cl, s1 SecLoads.cd fun _ _ hv => hv.cd]
      have hrot : ∀ (N T t : ℝ), ((DirVec.mk' (u.line * N) (-(u.line * T)) 0).bladeToAirfoil t).x
            = u.line * ((DirVec.mk' N (-T) 0).bladeToAirfoil t).x ∧
          ((DirVec.mk' (u.line * N) (-(u.line * T)) 0).bladeToAirfoil t).y = u.line * ((DirVec.mk' N (-T) 0).bladeToAirfoil t).y ∧
          ((DirVec.mk' (u.line * N) (-(u.line * T)) 0).bladeToAirfoil t).z = u.line * ((DirVec.mk' N (-T) 0).bladeToAirfoil t).z := by
        intro N T t
        refine ⟨?_, ?_, ?_⟩ <;> simp only [DirVec.bladeToAirfoil, rotXY, rotateAboutZ, DirVec.mk'] <;> ring
      simp only [(hrot _ _ _).1, (hrot _ _ _).2.1, (hrot _ _ _).2.2]
      refine ExRel.bind (ExRel.refl (r := Eq) (fun _ => rfl) _) fun v1 _ e => ?_
      cases e
      refine ExRel.bind (ExRel.refl (r := Eq) (fun _ => rfl) _) fun v2 _ e => ?_
      cases e
      refine (npInterps_units _ _ _ _ _).bind fun v3 v3' e3 => ?_
      refine (npInterps_units _ _ _ _ _).bind fun v4 v4' e4 => ?_
      refine .ok ⟨⟨?_, ?_, ?_, ?_, ?_, ?_, ?_, ?_, ?_, ?_, ?_, ?_, ?_, ?_, ?_⟩, ⟨?_, ?_, ?_, ?_, ?_, ?_⟩, ?_, ?_, e3, e4⟩
      · exact fun i => (one_mul _).symm
      · intro i
        rw [hW']
        simp [nanToNum, num_real]
      · exact fun i => (one_mul _).symm
      · exact fun i => (one_mul _).symm
      · exact fun i => (one_mul _).symm
      · exact fun i => (one_mul _).symm
      · exact fun i => (one_mul _).symm
      · exact fun i => rfl
      · exact fun i => (mul_neg _ _).symm
      · intro i; simp only; ring
      · exact fun i => rfl
      · exact fun i => rfl
      · exact fun i => rfl
      · exact fun i => rfl
      · exact fun i => rfl
      · rw [one_mul]; exact hC.CP
      · rw [one_mul]; exact hC.CMb
      · exact (mul_zero _).symm
      · exact (mul_zero _).symm
      · exact (mul_zero _).symm
      · exact (mul_zero _).symm
      · simp
      · simp

/-! ## Cases -/

/-- Metres to centimetres, seconds to minutes, kilograms to grams -/
noncomputable def smallUnits : Units := ⟨100, 1 / 60, 1000, by norm_num, by norm_num, by norm_num⟩

/-- A rotor that is built and analysed, with a thrust that is not zero -/
example : ∃ (x : CCArgs ℝ) (R : Rotor ℝ) (o : EvalOut ℝ) (c : CondOut ℝ), x.build = .ok R ∧
    (evaluate plainBq R [⟨10, 12, 0⟩] true).2 = .ok o ∧ o.conds = [c] ∧ 0 < c.acc.T.val := by
  obtain ⟨o, afs, g1, -, ho, hpos⟩ := tipEval_run
  obtain ⟨afs', R, -, e2, e3⟩ := EvalIn.run_inv (ho 0)
  obtain ⟨acc, -, hc⟩ := evaluate_one e3
  refine ⟨_, R, o 0, _, e2, e3, hc, ?_⟩
  simpa [outputAt, hc] using hpos

/-- Loads that are not zero, in the other units -/
example (bq : RootFinder ℝ) (S : LoadsState ℝ) : ∃ o o', (loadsCompute cornerFit bq S (bentBlade 2)).2 = .ok o ∧
    (loadsCompute cornerFit bq S ((bentBlade 2).times (smallUnits.declared loadsUnits))).2 = .ok o' ∧
    o.loads_Px 0 = 3 / 4 ∧ o'.loads_Px 0 = 2700000 := by
  obtain ⟨S', o, h1, h2⟩ := bent_load bq S 2
  have h := loads_component_any_units smallUnits cornerFit bq S (bentBlade 2)
  have e : o.loads_Px 0 = 3 / 4 := by rw [h2 0 (by norm_num)]; norm_num
  rw [h1] at h
  generalize hy : (loadsCompute cornerFit bq S ((bentBlade 2).times (smallUnits.declared loadsUnits))).2 = y at h
  cases h with
  | @ok _ o' h =>
    refine ⟨o, o', by rw [h1], rfl, e, ?_⟩
    rw [(h 0).2.1, e, declared_unit smallUnits (s := "N/m") rfl rfl, factor_line]
    norm_num [Units.line, smallUnits]

/-- The component `CCBladeEvaluate`, in the other units -/
example : ∃ o o', (tipEval.withDesign (tipCurve 0)).compute cornerFit plainBq = .ok o ∧
    ((tipEval.withDesign (tipCurve 0)).times (smallUnits.declared evalUnits)).compute cornerFit plainBq = .ok o' ∧
    o'.P = 2160000000000 * o.P ∧ 0 < o.Mb := by
  obtain ⟨o, h1, h2⟩ := tipEval_Mb
  have h := evaluate_component_any_units_partial smallUnits cornerFit plainBq (tipEval.withDesign (tipCurve 0))
  rw [h1] at h
  generalize hy : ((tipEval.withDesign (tipCurve 0)).times (smallUnits.declared evalUnits)).compute cornerFit plainBq = y at h
  cases h with
  | @ok _ o' h =>
    refine ⟨o, o', h1, rfl, ?_, h2⟩
    have := h.1 "P" (by simp) 0 (by norm_num)
    rw [declared_unit smallUnits (s := "W") rfl rfl, factor_power] at this
    norm_num [Units.power, smallUnits] at this
    exact this

/-- The inverse analysis of the sample blade finds the same twist in the other units. -/
example (pchip : Pchip ℝ) : ∃ o o', inverseTwist.compute cornerFit plainBq pchip = .ok o ∧
    (inverseTwist.times (smallUnits.declared twistUnits)).compute cornerFit plainBq pchip = .ok o' ∧
    o'.theta 1 = o.theta 1 ∧ o.theta 1 = Real.pi / 4 - 1 / 2 := by
  obtain ⟨o, h1⟩ := twist_component_total _ _ plainBq_onlyValueError _ _ (inverseTwist_ready pchip)
  have h := twist_component_any_units smallUnits cornerFit plainBq pchip inverseTwist
  have e := (inverseTwist_theta h1 1 (by norm_num)).1
  rw [h1] at h
  generalize hy : (inverseTwist.times (smallUnits.declared twistUnits)).compute cornerFit plainBq pchip = y at h
  cases h with
  | @ok _ o' h =>
    refine ⟨o, o', h1, rfl, ?_, e⟩
    have := h.1 ("theta", TwistOut.theta) (by simp) 1
    rw [declared_unit smallUnits (s := "rad") rfl rfl, factor_one, one_mul] at this
    exact this

end Verif
