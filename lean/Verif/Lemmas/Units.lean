import Verif.Model.Component
import Verif.Lemmas.CCBlade
import Verif.Lemmas.Interp
import Mathlib.Tactic.FieldSimp

/-!
# Change of the units of length, time and mass

`u.L` new units of length make one old one, and so on: a length `x` has the value `u.L * x` in the new units.  The functions of
the model are related at inputs that describe the same rotor in different units.
-/

namespace Verif

open Finset

/-- Results of two computations: both the same exception, or values that are related -/
inductive ExRel {β γ : Type} (r : β → γ → Prop) : Except PyErr β → Except PyErr γ → Prop
  | ok {a : β} {b : γ} : r a b → ExRel r (.ok a) (.ok b)
  | error (e : PyErr) : ExRel r (.error e) (.error e)

theorem ExRel.bind {β γ δ ε : Type} {r : β → γ → Prop} {s : δ → ε → Prop} {x : Except PyErr β} {y : Except PyErr γ}
    {f : β → Except PyErr δ} {g : γ → Except PyErr ε} (h : ExRel r x y) (hf : ∀ a b, r a b → ExRel s (f a) (g b)) :
    ExRel s (x >>= f) (y >>= g) := by
  cases h with
  | ok h => exact hf _ _ h
  | error e => exact .error e

theorem ExRel.mono {β γ : Type} {r s : β → γ → Prop} {x : Except PyErr β} {y : Except PyErr γ} (h : ExRel r x y)
    (hs : ∀ a b, r a b → s a b) : ExRel s x y := by
  cases h with
  | ok h => exact .ok (hs _ _ h)
  | error e => exact .error e

theorem ExRel.refl {β : Type} {r : β → β → Prop} (hr : ∀ a, r a a) (x : Except PyErr β) : ExRel r x x := by
  cases x with
  | ok a => exact .ok (hr a)
  | error e => exact .error e

theorem ExRel.ok_iff {β γ : Type} {r : β → γ → Prop} {x : Except PyErr β} {y : Except PyErr γ} (h : ExRel r x y) :
    (∃ a, x = .ok a) ↔ ∃ b, y = .ok b := by
  cases h with
  | ok h => simp
  | error e => simp

/-- New units of length, time and mass: the number of new units in an old one -/
structure Units where
  L : ℝ
  T : ℝ
  M : ℝ
  posL : 0 < L
  posT : 0 < T
  posM : 0 < M

namespace Units

variable (u : Units)

/-- Speed -/
noncomputable def vel : ℝ := u.L / u.T
/-- Rate of rotation -/
noncomputable def rate : ℝ := 1 / u.T
/-- Density -/
noncomputable def dens : ℝ := u.M / u.L ^ 3
/-- Dynamic viscosity -/
noncomputable def visc : ℝ := u.M / (u.L * u.T)
/-- Force per length -/
noncomputable def line : ℝ := u.M / u.T ^ 2
/-- Force -/
noncomputable def force : ℝ := u.M * u.L / u.T ^ 2
/-- Moment -/
noncomputable def moment : ℝ := u.M * u.L ^ 2 / u.T ^ 2
/-- Power -/
noncomputable def power : ℝ := u.M * u.L ^ 2 / u.T ^ 3
/-- Pressure -/
noncomputable def press : ℝ := u.M / (u.L * u.T ^ 2)

theorem neL : u.L ≠ 0 := u.posL.ne'
theorem neT : u.T ≠ 0 := u.posT.ne'
theorem neM : u.M ≠ 0 := u.posM.ne'
theorem vel_pos : 0 < u.vel := div_pos u.posL u.posT
theorem rate_pos : 0 < u.rate := div_pos one_pos u.posT

end Units

/-! ## The kernels -/

theorem solidity_units (u : Units) (B : ℕ) (c r : ℝ) : solidity B (u.L * c) (u.L * r) = solidity B c r := by
  unfold solidity
  rw [mul_left_comm, mul_div_mul_left _ _ u.neL]

theorem tipFactor_units (u : Units) (t : Bool) (B : ℕ) (r R s : ℝ) : tipFactor t B (u.L * r) (u.L * R) s = tipFactor t B r R s := by
  unfold tipFactor
  rw [← mul_sub, mul_left_comm, mul_assoc, mul_div_mul_left _ _ u.neL]

theorem hubFactor_units (u : Units) (t : Bool) (B : ℕ) (r R s : ℝ) : hubFactor t B (u.L * r) (u.L * R) s = hubFactor t B r R s := by
  unfold hubFactor
  rw [← mul_sub, mul_left_comm, mul_assoc, mul_div_mul_left _ _ u.neL]

theorem inductionFactors_units (u : Units) (r chord Rhub Rtip phi cl cd : ℝ) (B : ℕ) (Vx Vy : ℝ) (o : BemOpts) :
    inductionFactors (u.L * r) (u.L * chord) (u.L * Rhub) (u.L * Rtip) phi cl cd B (u.vel * Vx) (u.vel * Vy) o
      = inductionFactors r chord Rhub Rtip phi cl cd B Vx Vy o := by
  simp only [inductionFactors, bemResidual, solidity_units, tipFactor_units, hubFactor_units,
    mul_div_mul_left _ _ u.vel_pos.ne']

theorem relSpeed_units (phi a ap Vx Vy s : ℝ) (hs : 0 < s) :
    relSpeed phi a ap (s * Vx) (s * Vy) = s * relSpeed phi a ap Vx Vy := by
  simp only [relSpeed, num_real]
  split_ifs
  · ring
  · ring
  · rw [show (s * Vx * (1 - a)) ^ 2 + (s * Vy * (1 + ap)) ^ 2 = s ^ 2 * ((Vx * (1 - a)) ^ 2 + (Vy * (1 + ap)) ^ 2) by ring,
      Real.sqrt_mul (by positivity), Real.sqrt_sq hs.le]

theorem relativeWind_units (u : Units) (phi a ap Vx Vy pitch chord theta rho mu : ℝ) :
    let w := relativeWind phi a ap Vx Vy pitch chord theta rho mu
    relativeWind phi a ap (u.vel * Vx) (u.vel * Vy) pitch (u.L * chord) theta (u.dens * rho) (u.visc * mu)
      = ⟨w.alpha, u.vel * w.W, w.Re⟩ := by
  simp only [relativeWind, relSpeed_units _ _ _ _ _ _ u.vel_pos, WindOut.mk.injEq, true_and]
  have h : u.dens * u.vel * u.L = u.visc := by
    have h1 := u.neL; have h2 := u.neT
    unfold Units.dens Units.vel Units.visc
    field_simp
  have hv : u.visc ≠ 0 := by
    have h1 := u.neL; have h2 := u.neT; have h3 := u.neM
    unfold Units.visc
    positivity
  rw [show u.dens * rho * (u.vel * relSpeed phi a ap Vx Vy) * (u.L * chord)
    = u.dens * u.vel * u.L * (rho * relSpeed phi a ap Vx Vy * chord) by ring, h, mul_div_mul_left _ _ hv]

theorem segAngle_units (u : Units) (x z : ℕ → ℝ) (i : ℕ) :
    segAngle (fun j => u.L * x j) (fun j => u.L * z j) i = segAngle x z i := by
  have h := Complex.arg_real_mul ⟨z (i + 1) - z i, -(x (i + 1) - x i)⟩ u.posL
  simp only [segAngle, num_real]
  rw [← h]
  congr 1
  apply Complex.ext <;> simp <;> ring

theorem segLength_units (u : Units) (r c s : ℕ → ℝ) (i : ℕ) :
    segLength (fun j => u.L * r j) (fun j => u.L * c j) (fun j => u.L * s j) i = u.L * segLength r c s i := by
  simp only [segLength, num_real]
  rw [show (u.L * c (i + 1) - u.L * c i) ^ 2 + (u.L * s (i + 1) - u.L * s i) ^ 2 + (u.L * r (i + 1) - u.L * r i) ^ 2
    = u.L ^ 2 * ((c (i + 1) - c i) ^ 2 + (s (i + 1) - s i) ^ 2 + (r (i + 1) - r i) ^ 2) by ring,
    Real.sqrt_mul (sq_nonneg _), Real.sqrt_sq u.posL.le]

theorem pathLength_units (u : Units) (r c s : ℕ → ℝ) (i : ℕ) :
    pathLength (fun j => u.L * r j) (fun j => u.L * c j) (fun j => u.L * s j) i = u.L * pathLength r c s i := by
  induction i with
  | zero => simp [pathLength]
  | succ i ih => simp only [pathLength, ih, segLength_units, mul_add]

theorem defineCurvature_units (u : Units) (n : ℕ) (r c s : ℕ → ℝ) (p : ℝ) :
    let d := defineCurvature n r c s p
    defineCurvature n (fun j => u.L * r j) (fun j => u.L * c j) (fun j => u.L * s j) p
      = ⟨fun i => u.L * d.x_az i, fun i => u.L * d.y_az i, fun i => u.L * d.z_az i, d.cone, fun i => u.L * d.s i⟩ := by
  have hx : xAz (fun j => u.L * r j) (fun j => u.L * c j) p = fun i => u.L * xAz r c p i := by
    funext i; simp only [xAz]; ring
  have hz : zAz (fun j => u.L * r j) (fun j => u.L * c j) p = fun i => u.L * zAz r c p i := by
    funext i; simp only [zAz]; ring
  simp only [defineCurvature, hx, hz]
  congr 1
  · funext i; simp only [coneAngle, segAngle_units]
  · funext i; exact pathLength_units u r c s i

theorem windComponents_units (u : Units) (n : ℕ) (r c s : ℕ → ℝ) (p yaw tilt az U Om H sh : ℝ) (i : ℕ) :
    let w := windComponents n r c s p yaw tilt az U Om H sh i
    windComponents n (fun j => u.L * r j) (fun j => u.L * c j) (fun j => u.L * s j) p yaw tilt az (u.vel * U) (u.rate * Om)
      (u.L * H) sh i = (u.vel * w.1, u.vel * w.2) := by
  simp only [windComponents, defineCurvature_units]
  generalize defineCurvature n r c s p = d
  have hh : heightFromHub (u.L * d.x_az i) (u.L * d.y_az i) (u.L * d.z_az i) tilt az / (u.L * H)
      = heightFromHub (d.x_az i) (d.y_az i) (d.z_az i) tilt az / H := by
    rw [show heightFromHub (u.L * d.x_az i) (u.L * d.y_az i) (u.L * d.z_az i) tilt az
      = u.L * heightFromHub (d.x_az i) (d.y_az i) (d.z_az i) tilt az by simp only [heightFromHub]; ring,
      mul_div_mul_left _ _ u.neL]
  have hv : u.rate * u.L = u.vel := by simp only [Units.rate, Units.vel]; ring
  simp only [shearedWind, hh, ← hv]
  ext <;> simp only <;> ring

theorem trapz_units (m : ℕ) (a b : ℝ) (f s : ℕ → ℝ) :
    trapz m (fun i => a * f i) (fun i => b * s i) = a * b * trapz m f s := by
  simp only [trapz, num_real, mul_sum]
  exact sum_congr rfl fun i _ => by ring

theorem padded_units (n : ℕ) (k a b : ℝ) (f : ℕ → ℝ) :
    padded n (k * a) (fun i => k * f i) (k * b) = fun i => k * padded n a f b i := by
  funext i
  unfold padded
  split_ifs <;> rfl

theorem padded_units0 (n : ℕ) (k b : ℝ) (f : ℕ → ℝ) :
    padded n 0 (fun i => k * f i) (k * b) = fun i => k * padded n 0 f b i := by
  simpa using padded_units n k 0 b f

theorem padded_units00 (n : ℕ) (k : ℝ) (f : ℕ → ℝ) : padded n 0 (fun i => k * f i) 0 = fun i => k * padded n 0 f 0 i := by
  simpa using padded_units n k 0 0 f

theorem thrustTorque_units (u : Units) (n : ℕ) (Np Tp r c s : ℕ → ℝ) (p Rhub Rtip ct st : ℝ) :
    let t := thrustTorque n Np Tp r c s p Rhub Rtip ct st
    thrustTorque n (fun i => u.line * Np i) (fun i => u.line * Tp i) (fun i => u.L * r i) (fun i => u.L * c i)
      (fun i => u.L * s i) p (u.L * Rhub) (u.L * Rtip) (u.L * ct) (u.L * st)
      = ⟨u.force * t.T, u.force * t.Y, u.force * t.Z, u.moment * t.Q, u.moment * t.M⟩ := by
  have hf : u.force = u.line * u.L := by simp only [Units.force, Units.line]; ring
  have hm : u.moment = u.line * u.L * u.L := by simp only [Units.moment, Units.line]; ring
  simp only [thrustTorque, padded_units, padded_units0, padded_units00, defineCurvature_units]
  generalize defineCurvature (n + 2) (padded n Rhub r Rtip) (padded n 0 c ct) (padded n 0 s st) p = d
  have e1 : ∀ (F g : ℕ → ℝ), (fun i => u.line * F i * g i) = fun i => u.line * (F i * g i) := fun F g => by funext i; ring
  have e2 : ∀ (F g : ℕ → ℝ), trapz (n + 1) (fun i => u.line * F i * (u.L * g i)) (fun i => u.L * d.s i)
      = u.line * u.L * u.L * trapz (n + 1) (fun i => F i * g i) d.s := fun F g => by
    rw [← trapz_units]
    congr 1
    funext i; ring
  simp only [e2]
  simp only [e1, trapz_units, hf, hm]

/-! ## The rotor -/

/-- Two objects that describe the same rotor, the second in the new units (the saved Jacobians are not compared) -/
structure Rotor.Conv (u : Units) (R R' : Rotor ℝ) : Prop where
  n : R'.n = R.n
  r : R'.r = fun i => u.L * R.r i
  chord : R'.chord = fun i => u.L * R.chord i
  theta : R'.theta = R.theta
  af : R'.af = R.af
  Rhub : R'.Rhub = u.L * R.Rhub
  Rtip : R'.Rtip = u.L * R.Rtip
  B : R'.B = R.B
  rho : R'.rho = u.dens * R.rho
  mu : R'.mu = u.visc * R.mu
  precone : R'.precone = R.precone
  tilt : R'.tilt = R.tilt
  yaw : R'.yaw = R.yaw
  shearExp : R'.shearExp = R.shearExp
  hubHt : R'.hubHt = u.L * R.hubHt
  opts : R'.opts = R.opts
  iterRe : R'.iterRe = R.iterRe
  derivatives : R'.derivatives = R.derivatives
  precurve : R'.precurve = fun i => u.L * R.precurve i
  precurveTip : R'.precurveTip = u.L * R.precurveTip
  presweep : R'.presweep = fun i => u.L * R.presweep i
  presweepTip : R'.presweepTip = u.L * R.presweepTip
  rotorR : R'.rotorR = u.L * R.rotorR
  nSector : R'.nSector = R.nSector
  inv : R'.inv = R.inv

/-- A section of the blade in the new units -/
noncomputable def Sec.conv (u : Units) (x : Sec ℝ) : Sec ℝ :=
  ⟨u.L * x.r, u.L * x.chord, x.theta, x.af, u.vel * x.Vx, u.vel * x.Vy⟩

theorem bemPass_units {u : Units} {R R' : Rotor ℝ} (h : R.Conv u R') (pitch phi : ℝ) (x : Sec ℝ) (a ap : ℝ) :
    bemPass R' pitch phi (x.conv u) a ap = bemPass R pitch phi x a ap := by
  simp only [bemPass, Sec.conv, h.rho, h.mu, h.Rhub, h.Rtip, h.B, h.opts, relativeWind_units, inductionFactors_units]

theorem runBEM_units {u : Units} {R R' : Rotor ℝ} (h : R.Conv u R') (pitch phi : ℝ) (x : Sec ℝ) :
    runBEM R' pitch phi (x.conv u) = runBEM R pitch phi x := by
  have hk : ∀ k o, bemPasses R' pitch phi (x.conv u) k o = bemPasses R pitch phi x k o := by
    intro k
    induction k with
    | zero => intro o; rfl
    | succ k ih => intro o; simp only [bemPasses, bemPass_units h, ih]
  simp only [runBEM, hk, bemPass_units h, h.iterRe]

/-- The values at a section in the new units -/
structure SecLoads.Conv (u : Units) (v v' : SecLoads ℝ) : Prop where
  a : v'.a = v.a
  ap : v'.ap = v.ap
  Np : v'.Np = u.line * v.Np
  Tp : v'.Tp = u.line * v.Tp
  alpha : v'.alpha = v.alpha
  cl : v'.cl = v.cl
  cd : v'.cd = v.cd
  cn : v'.cn = v.cn
  ct : v'.ct = v.ct
  q : v'.q = u.press * v.q
  W : v'.W = u.vel * v.W
  Re : v'.Re = v.Re

theorem secValues_units {u : Units} {R R' : Rotor ℝ} (h : R.Conv u R') (pitch phi : ℝ) (rot : Bool) (x : Sec ℝ) :
    SecLoads.Conv u (secValues R pitch phi rot x) (secValues R' pitch phi rot (x.conv u)) := by
  have hb := runBEM_units h pitch phi x
  have hq : u.dens * u.vel ^ 2 = u.press := by
    have h1 := u.neL; have h2 := u.neT
    unfold Units.dens Units.vel Units.press
    field_simp
  have hl : u.press * u.L = u.line := by
    have h1 := u.neL; have h2 := u.neT
    unfold Units.press Units.line
    field_simp
  simp only [secValues, hb]
  simp only [Sec.conv, h.rho, h.mu, relativeWind_units]
  constructor <;> simp only [num_real, ← hl, ← hq] <;> ring

theorem secLoads_units {u : Units} {R R' : Rotor ℝ} (h : R.Conv u R') (pitch phi : ℝ) (rot : Bool) (x : Sec ℝ) :
    ExRel (fun v v' => SecLoads.Conv u v.1 v'.1) (secLoads R pitch phi rot x) (secLoads R' pitch phi rot (x.conv u)) := by
  have hv := secValues_units h pitch phi rot x
  have hz : ∀ y : ℝ, (u.vel * y == 0) = (y == 0) := by
    intro y
    simp [num_real, u.vel_pos.ne']
  have hz' : ∀ y : ℝ, (u.L * y == 0) = (y == 0) := by
    intro y
    simp [num_real, u.neL]
  unfold secLoads
  simp only [show (x.conv u).Vx = u.vel * x.Vx from rfl, show (x.conv u).Vy = u.vel * x.Vy from rfl, hz,
    show (x.conv u).chord = u.L * x.chord from rfl, hv.cn, hv.W, hz', h.derivatives]
  split_ifs
  · exact .error _
  · exact .ok hv
  · exact .ok (by constructor <;> simp)

/-- A station in the new units (derivatives are not compared) -/
structure Station.Conv (u : Units) (s s' : Station ℝ) : Prop where
  phi : s'.phi = s.phi
  warned : s'.warned = s.warned
  theta : s'.theta = s.theta
  loads : SecLoads.Conv u s.loads s'.loads

theorem stationErrf_units {u : Units} {R R' : Rotor ℝ} (h : R.Conv u R') (pitch : ℝ) {V V' : ℕ → ℝ × ℝ} {i : ℕ}
    (hV : V' i = (u.vel * (V i).1, u.vel * (V i).2)) : stationErrf R' pitch V' i = stationErrf R pitch V i := by
  have hs : ∀ th, stationSec R' V' i th = (stationSec R V i th).conv u := fun th => by
    simp only [stationSec, Sec.conv, hV, h.r, h.chord, h.af]
  unfold stationErrf
  rw [h.inv, h.theta, hs]
  cases R.inv with
  | none => funext phi; simp only [errFun, runBEM_units h]
  | some d =>
    funext phi
    simp only [errFunInv, Sec.conv, h.Rhub, h.Rtip, h.B, h.opts, inductionFactors_units]

theorem solveStation_units (bq : RootFinder ℝ) {u : Units} {R R' : Rotor ℝ} (h : R.Conv u R') (pitch Omega : ℝ)
    {V V' : ℕ → ℝ × ℝ} {i : ℕ} (hV : V' i = (u.vel * (V i).1, u.vel * (V i).2)) :
    ExRel (Station.Conv u) (solveStation bq R pitch Omega V i) (solveStation bq R' pitch (u.rate * Omega) V' i) := by
  have hz : (u.rate * Omega == 0) = (Omega == 0) := by simp [num_real, u.rate_pos.ne']
  have hs : ∀ th, stationSec R' V' i th = (stationSec R V i th).conv u := fun th => by
    simp only [stationSec, Sec.conv, hV, h.r, h.chord, h.af]
  have hphi : stationPhi bq R' pitch (u.rate * Omega) V' i = stationPhi bq R pitch Omega V i := by
    simp only [stationPhi, hz, stationErrf_units h pitch hV, h.iterRe]
  have hth : ∀ phi, stationTheta R' pitch phi i = stationTheta R pitch phi i := fun phi => by
    simp only [stationTheta, h.inv, h.theta]
  unfold solveStation
  rw [hphi]
  cases stationPhi bq R pitch Omega V i with
  | error e => exact .error e
  | ok pw =>
    obtain ⟨phi, w⟩ := pw
    simp only [hth, hs, hz]
    have hl := secLoads_units h pitch phi (!Omega == 0) (stationSec R V i (stationTheta R pitch phi i))
    generalize secLoads R pitch phi (!Omega == 0) (stationSec R V i (stationTheta R pitch phi i)) = A at hl
    generalize secLoads R' pitch phi (!Omega == 0) ((stationSec R V i (stationTheta R pitch phi i)).conv u) = A' at hl
    cases hl with
    | error e => exact .error e
    | ok hl =>
      simp only [real_isNaN, Bool.false_and, Bool.false_eq_true, if_false]
      exact .ok ⟨rfl, rfl, rfl, hl⟩

theorem solveStations_units (bq : RootFinder ℝ) {u : Units} {R R' : Rotor ℝ} (h : R.Conv u R') (pitch Omega : ℝ)
    {V V' : ℕ → ℝ × ℝ} (hV : ∀ i, V' i = (u.vel * (V i).1, u.vel * (V i).2)) (k : ℕ) :
    ExRel (List.Forall₂ (Station.Conv u)) (solveStations bq R pitch Omega V k)
      (solveStations bq R' pitch (u.rate * Omega) V' k) := by
  induction k with
  | zero => exact .ok .nil
  | succ k ih =>
    refine ih.bind fun l l' hl => ?_
    refine (solveStation_units bq h pitch Omega (hV k)).bind fun s s' hs => ?_
    exact .ok (List.rel_append hl (.cons hs .nil))

theorem rotorWind_units {u : Units} {R R' : Rotor ℝ} (h : R.Conv u R') (U Om az : ℝ) (i : ℕ) :
    rotorWind R' (u.vel * U) (u.rate * Om) az i = (u.vel * (rotorWind R U Om az i).1, u.vel * (rotorWind R U Om az i).2) := by
  simp only [rotorWind, h.n, h.r, h.precurve, h.presweep, h.precone, h.yaw, h.tilt, h.hubHt, h.shearExp, windComponents_units]

/-- An array over the stations in the new units -/
theorem stationArr_units {u : Units} {l l' : List (Station ℝ)} (h : List.Forall₂ (Station.Conv u) l l') (f : SecLoads ℝ → ℝ) (k : ℝ)
    (hf : ∀ v v', SecLoads.Conv u v v' → f v' = k * f v) : stationArr l' f = fun i => k * stationArr l f i := by
  funext i
  unfold stationArr
  induction h generalizing i with
  | nil => simp
  | cons hs _ ih =>
    cases i with
    | zero => simpa using hf _ _ hs.loads
    | succ i => simpa using ih i

theorem forall2_theta {u : Units} {l l' : List (Station ℝ)} (h : List.Forall₂ (Station.Conv u) l l') :
    (fun i : ℕ => ((l'[i]?).map Station.theta).getD 0) = fun i : ℕ => ((l[i]?).map Station.theta).getD 0 := by
  funext i
  induction h generalizing i with
  | nil => rfl
  | cons hs _ ih =>
    cases i with
    | zero => simpa using hs.theta
    | succ i => simpa using ih i

/-- The twist after the loop over the blade -/
def thetaAfter {α : Type} [Num α] (R : Rotor α) : Except PyErr (List (Station α)) → ℕ → α
  | .error _ => R.theta
  | .ok s => match R.inv with
    | some _ => fun i => ((s[i]?).map Station.theta).getD 0
    | none => R.theta

theorem loads_state {α : Type} [Num α] (bq : RootFinder α) (R : Rotor α) (U Om pitch az : α) :
    ∃ J, (distributedAeroLoads bq R U Om pitch az).1 = { R with
      pitch := some (deg2rad pitch)
      theta := thetaAfter R (solveStations bq R (deg2rad pitch) Om (rotorWind R U Om (deg2rad az)) R.n)
      saved := J } := by
  unfold distributedAeroLoads
  simp only
  generalize solveStations bq R (deg2rad pitch) Om (rotorWind R U Om (deg2rad az)) R.n = A
  obtain ⟨⟩ := R
  rename_i derivatives _ _ _ _ _ _ inv _ _
  cases A <;> cases inv <;> cases derivatives <;> exact ⟨_, rfl⟩

theorem loads_stations {α : Type} [Num α] (bq : RootFinder α) (R : Rotor α) (U Om pitch az : α) :
    (distributedAeroLoads bq R U Om pitch az).2.map LoadsOut.stations
      = solveStations bq R (deg2rad pitch) Om (rotorWind R U Om (deg2rad az)) R.n := by
  unfold distributedAeroLoads
  simp only
  cases solveStations bq R (deg2rad pitch) Om (rotorWind R U Om (deg2rad az)) R.n with
  | error e => rfl
  | ok s => simp only; split_ifs <;> rfl

theorem ExRel.of_map {β γ δ ε : Type} {r : δ → ε → Prop} {x : Except PyErr β} {y : Except PyErr γ} {f : β → δ} {g : γ → ε}
    (h : ExRel r (x.map f) (y.map g)) : ExRel (fun a b => r (f a) (g b)) x y := by
  cases x <;> cases y <;> cases h
  · exact .error _
  · exact .ok ‹_›

theorem Rotor.Conv.update {u : Units} {R R' : Rotor ℝ} (h : R.Conv u R') {th th' : ℕ → ℝ} (ht : th' = th) (p p' : Option ℝ)
    (J J' : Option (LoadJac ℝ)) :
    Rotor.Conv u { R with theta := th, pitch := p, saved := J } { R' with theta := th', pitch := p', saved := J' } :=
  ⟨h.n, h.r, h.chord, ht, h.af, h.Rhub, h.Rtip, h.B, h.rho, h.mu, h.precone, h.tilt, h.yaw, h.shearExp, h.hubHt, h.opts, h.iterRe,
    h.derivatives, h.precurve, h.precurveTip, h.presweep, h.presweepTip, h.rotorR, h.nSector, h.inv⟩

/-- Loads in the new units -/
theorem distributedAeroLoads_units (bq : RootFinder ℝ) {u : Units} {R R' : Rotor ℝ} (h : R.Conv u R') (U Om pitch az : ℝ) :
    (distributedAeroLoads bq R U Om pitch az).1.Conv u (distributedAeroLoads bq R' (u.vel * U) (u.rate * Om) pitch az).1 ∧
    ExRel (fun L L' => List.Forall₂ (Station.Conv u) L.stations L'.stations) (distributedAeroLoads bq R U Om pitch az).2
      (distributedAeroLoads bq R' (u.vel * U) (u.rate * Om) pitch az).2 := by
  have hs := solveStations_units bq h (deg2rad pitch) Om (V := rotorWind R U Om (deg2rad az))
    (V' := rotorWind R' (u.vel * U) (u.rate * Om) (deg2rad az)) (fun i => rotorWind_units h U Om (deg2rad az) i) R.n
  constructor
  · obtain ⟨J, e⟩ := loads_state bq R U Om pitch az
    obtain ⟨J', e'⟩ := loads_state bq R' (u.vel * U) (u.rate * Om) pitch az
    rw [e, e']
    refine h.update ?_ _ _ _ _
    rw [h.n]
    generalize solveStations bq R (deg2rad pitch) Om (rotorWind R U Om (deg2rad az)) R.n = A at hs
    generalize solveStations bq R' (deg2rad pitch) (u.rate * Om) (rotorWind R' (u.vel * U) (u.rate * Om) (deg2rad az)) R.n = A' at hs
    cases hs with
    | error e => exact h.theta
    | ok hs =>
      unfold thetaAfter
      simp only [h.inv, h.theta]
      cases R.inv with
      | none => rfl
      | some _ => exact forall2_theta hs
  · apply ExRel.of_map
    rw [loads_stations, loads_stations, h.n]
    exact hs

/-- The accumulated quantities of one condition in the new units -/
structure RotorAcc.Conv (u : Units) (a a' : RotorAcc ℝ) : Prop where
  T : a'.T.val = u.force * a.T.val
  Y : a'.Y.val = u.force * a.Y.val
  Z : a'.Z.val = u.force * a.Z.val
  Q : a'.Q.val = u.moment * a.Q.val
  My : a'.My.val = u.moment * a.My.val
  Mz : a'.Mz.val = u.moment * a.Mz.val
  Mb : a'.Mb.val = u.moment * a.Mb.val
  W : a'.W = a.W.map fun W i => u.vel * W i

/-- The values accumulated from one azimuth -/
theorem sectorStep_val {α : Type} [Num α] (R : Rotor α) (az : α) (L : LoadsOut α) (acc : RotorAcc α) :
    let t := thrustTorque R.n (stationArr L.stations SecLoads.Np) (stationArr L.stations SecLoads.Tp) R.r R.precurve R.presweep
      R.precone R.Rhub R.Rtip R.precurveTip R.presweepTip
    let a := sectorStep R az L acc
    let B := Num.nat R.B
    let ns := Num.nat R.nSector
    a.T.val = acc.T.val + B * t.T / ns ∧
    a.Y.val = acc.Y.val + B * (t.Y * Num.cos az - t.Z * Num.sin az) / ns ∧
    a.Z.val = acc.Z.val + B * (t.Z * Num.cos az + t.Y * Num.sin az) / ns ∧
    a.Q.val = acc.Q.val + B * t.Q / ns ∧
    a.My.val = acc.My.val + B * t.M * Num.cos az / ns ∧
    a.Mz.val = acc.Mz.val + B * t.M * Num.sin az / ns ∧
    a.Mb.val = acc.Mb.val + t.M / ns ∧
    a.W = some (stationArr L.stations SecLoads.W) := by
  simp only [sectorStep, Quant.add, Quant.map2]
  cases (if R.derivatives = true then R.saved else none) <;> simp

theorem sectorStep_units {u : Units} {R R' : Rotor ℝ} (h : R.Conv u R') (az : ℝ) {L L' : LoadsOut ℝ}
    (hL : List.Forall₂ (Station.Conv u) L.stations L'.stations) {a a' : RotorAcc ℝ} (ha : a.Conv u a') :
    (sectorStep R az L a).Conv u (sectorStep R' az L' a') := by
  have hN := stationArr_units hL SecLoads.Np u.line fun v v' hv => hv.Np
  have hT := stationArr_units hL SecLoads.Tp u.line fun v v' hv => hv.Tp
  have hW := stationArr_units hL SecLoads.W u.vel fun v v' hv => hv.W
  have e := sectorStep_val R az L a
  have e' := sectorStep_val R' az L' a'
  simp only [h.n, h.r, h.precurve, h.presweep, h.precone, h.Rhub, h.Rtip, h.precurveTip, h.presweepTip, h.B, h.nSector, hN, hT, hW,
    thrustTorque_units] at e'
  simp only at e
  generalize sectorStep R az L a = b at e
  generalize sectorStep R' az L' a' = b' at e'
  obtain ⟨e1, e2, e3, e4, e5, e6, e7, e8⟩ := e
  obtain ⟨f1, f2, f3, f4, f5, f6, f7, f8⟩ := e'
  constructor
  · rw [e1, f1, ha.T]; ring
  · rw [e2, f2, ha.Y]; ring
  · rw [e3, f3, ha.Z]; ring
  · rw [e4, f4, ha.Q]; ring
  · rw [e5, f5, ha.My]; ring
  · rw [e6, f6, ha.Mz]; ring
  · rw [e7, f7, ha.Mb]; ring
  · rw [e8, f8]; rfl

theorem sectorLoop_units (bq : RootFinder ℝ) {u : Units} (U Om pitch : ℝ) : ∀ (azs : List ℝ) {R R' : Rotor ℝ} {a a' : RotorAcc ℝ},
    R.Conv u R' → a.Conv u a' →
    (sectorLoop bq U Om pitch azs R a).1.Conv u (sectorLoop bq (u.vel * U) (u.rate * Om) pitch azs R' a').1 ∧
    ExRel (RotorAcc.Conv u) (sectorLoop bq U Om pitch azs R a).2 (sectorLoop bq (u.vel * U) (u.rate * Om) pitch azs R' a').2
  | [], _, _, _, _, h, ha => ⟨h, .ok ha⟩
  | az :: rest, R, R', a, a', h, ha => by
    obtain ⟨h1, h2⟩ := distributedAeroLoads_units bq h U Om pitch (rad2deg az)
    simp only [sectorLoop]
    generalize distributedAeroLoads bq R U Om pitch (rad2deg az) = x at h1 h2
    generalize distributedAeroLoads bq R' (u.vel * U) (u.rate * Om) pitch (rad2deg az) = x' at h1 h2
    obtain ⟨S, y⟩ := x
    obtain ⟨S', y'⟩ := x'
    cases h2 with
    | error e => exact ⟨h1, .error e⟩
    | ok hL => exact sectorLoop_units bq U Om pitch rest h1 (sectorStep_units h1 az hL ha)

/-- A condition in the new units -/
noncomputable def Cond.conv (u : Units) (c : Cond ℝ) : Cond ℝ := ⟨u.vel * c.Uinf, u.rate * c.Omega, c.pitch⟩

theorem condLoop_units (bq : RootFinder ℝ) {u : Units} : ∀ (cs : List (Cond ℝ)) {R R' : Rotor ℝ}, R.Conv u R' →
    (condLoop bq cs R).1.Conv u (condLoop bq (cs.map (Cond.conv u)) R').1 ∧
    ExRel (List.Forall₂ (RotorAcc.Conv u)) (condLoop bq cs R).2 (condLoop bq (cs.map (Cond.conv u)) R').2
  | [], _, _, h => ⟨h, .ok .nil⟩
  | c :: rest, R, R', h => by
    have h0 : RotorAcc.Conv u RotorAcc.zero RotorAcc.zero := by
      constructor <;> simp [RotorAcc.zero, Quant.zero]
    obtain ⟨h1, h2⟩ := sectorLoop_units bq c.Uinf c.Omega c.pitch (azimuthAngles R.nSector) h h0
    simp only [condLoop, List.map_cons, h.nSector, Cond.conv]
    generalize sectorLoop bq c.Uinf c.Omega c.pitch (azimuthAngles R.nSector) R RotorAcc.zero = x at h1 h2
    generalize sectorLoop bq (u.vel * c.Uinf) (u.rate * c.Omega) c.pitch (azimuthAngles R.nSector) R' RotorAcc.zero = x' at h1 h2
    obtain ⟨S, y⟩ := x
    obtain ⟨S', y'⟩ := x'
    cases h2 with
    | error e => exact ⟨h1, .error e⟩
    | ok hL =>
      obtain ⟨h3, h4⟩ := condLoop_units bq rest h1
      simp only
      generalize condLoop bq rest S = z at h3 h4
      generalize condLoop bq (rest.map (Cond.conv u)) S' = z' at h3 h4
      obtain ⟨Z, w⟩ := z
      obtain ⟨Z', w'⟩ := z'
      cases h4 with
      | error e => exact ⟨h3, .error e⟩
      | ok hl => exact ⟨h3, .ok (.cons hL hl)⟩

/-- The coefficients are the same numbers -/
structure Coefs.Same (C C' : Coefs ℝ) : Prop where
  CP : C'.CP.val = C.CP.val
  CT : C'.CT.val = C.CT.val
  CY : C'.CY.val = C.CY.val
  CZ : C'.CZ.val = C.CZ.val
  CQ : C'.CQ.val = C.CQ.val
  CMy : C'.CMy.val = C.CMy.val
  CMz : C'.CMz.val = C.CMz.val
  CMb : C'.CMb.val = C.CMb.val

theorem power_units {u : Units} {a a' : RotorAcc ℝ} (ha : a.Conv u a') (Om : ℝ) :
    (power a'.Q (u.rate * Om)).val = u.power * (power a.Q Om).val := by
  simp only [power, ha.Q, Units.power, Units.moment, Units.rate]
  have h2 := u.neT
  field_simp

theorem coefs_units {u : Units} {R R' : Rotor ℝ} (h : R.Conv u R') (c : Cond ℝ) {a a' : RotorAcc ℝ} (ha : a.Conv u a') :
    (coefs R c a).Same (coefs R' (c.conv u) a') := by
  have h1 := u.neL
  have h2 := u.neT
  have h3 := u.neM
  have hp := power_units ha c.Omega
  have kf : u.force ≠ 0 := by unfold Units.force; positivity
  have km : u.moment ≠ 0 := by unfold Units.moment; positivity
  have kp : u.power ≠ 0 := by unfold Units.power; positivity
  have q1 : u.force = u.dens * u.vel ^ 2 * u.L ^ 2 := by
    simp only [Units.dens, Units.vel, Units.force]; field_simp
  have q2 : u.moment = u.dens * u.vel ^ 2 * u.L ^ 3 := by
    simp only [Units.dens, Units.vel, Units.moment]; field_simp
  have q3 : u.power = u.dens * u.vel ^ 3 * u.L ^ 2 := by
    simp only [Units.dens, Units.vel, Units.power]; field_simp
  have gf : ∀ x : ℝ, u.force * x / (1 / 2 * (u.dens * R.rho) * (u.vel * c.Uinf) ^ 2 * (Real.pi * (u.L * R.rotorR) ^ 2))
      = x / (1 / 2 * R.rho * c.Uinf ^ 2 * (Real.pi * R.rotorR ^ 2)) := fun x => by
    rw [← mul_div_mul_left x _ kf]; congr 1; rw [q1]; ring
  have gm : ∀ x : ℝ, u.moment * x / (1 / 2 * (u.dens * R.rho) * (u.vel * c.Uinf) ^ 2 * (u.L * R.rotorR) * (Real.pi * (u.L * R.rotorR) ^ 2))
      = x / (1 / 2 * R.rho * c.Uinf ^ 2 * R.rotorR * (Real.pi * R.rotorR ^ 2)) := fun x => by
    rw [← mul_div_mul_left x _ km]; congr 1; rw [q2]; ring
  have gp : ∀ x : ℝ, u.power * x / (1 / 2 * (u.dens * R.rho) * (u.vel * c.Uinf) ^ 2 * (Real.pi * (u.L * R.rotorR) ^ 2) * (u.vel * c.Uinf))
      = x / (1 / 2 * R.rho * c.Uinf ^ 2 * (Real.pi * R.rotorR ^ 2) * c.Uinf) := fun x => by
    rw [← mul_div_mul_left x _ kp]; congr 1; rw [q3]; ring
  have e1 : (c.conv u).Uinf = u.vel * c.Uinf := rfl
  have e2 : (c.conv u).Omega = u.rate * c.Omega := rfl
  constructor <;>
    simp only [coefs, e1, e2, h.rho, h.rotorR, hp, ha.T, ha.Y, ha.Z, ha.Q, ha.My, ha.Mz, ha.Mb, num_real] <;>
    first | exact gf _ | exact gm _ | exact gp _

/-- The outputs for one condition in the new units -/
structure CondOut.Conv (u : Units) (x x' : CondOut ℝ) : Prop where
  acc : x.acc.Conv u x'.acc
  P : x'.P.val = u.power * x.P.val
  C : (x.C = none ∧ x'.C = none) ∨ ∃ C C', x.C = some C ∧ x'.C = some C' ∧ C.Same C'

/-- The result of `evaluate` in the new units -/
structure EvalOut.Conv (u : Units) (o o' : EvalOut ℝ) : Prop where
  conds : List.Forall₂ (CondOut.Conv u) o.conds o'.conds
  W : o'.W = fun i => u.vel * o.W i

theorem lastW_units {u : Units} {l l' : List (RotorAcc ℝ)} (h : List.Forall₂ (RotorAcc.Conv u) l l') :
    l'.getLast?.bind RotorAcc.W = (l.getLast?.bind RotorAcc.W).map fun W i => u.vel * W i := by
  induction h with
  | nil => rfl
  | cons hx hl ih =>
    cases hl with
    | nil => simpa using hx.W
    | cons _ _ => simpa [List.getLast?_cons_cons] using ih

/-- `evaluate` in the new units -/
theorem evaluate_units (bq : RootFinder ℝ) {u : Units} {R R' : Rotor ℝ} (h : R.Conv u R') (cs : List (Cond ℝ)) (b : Bool) :
    (evaluate bq R cs b).1.Conv u (evaluate bq R' (cs.map (Cond.conv u)) b).1 ∧
    ExRel (EvalOut.Conv u) (evaluate bq R cs b).2 (evaluate bq R' (cs.map (Cond.conv u)) b).2 := by
  obtain ⟨h1, h2⟩ := condLoop_units bq cs h
  unfold evaluate
  generalize condLoop bq cs R = x at h1 h2
  generalize condLoop bq (cs.map (Cond.conv u)) R' = x' at h1 h2
  obtain ⟨S, y⟩ := x
  obtain ⟨S', y'⟩ := x'
  cases h2 with
  | error e => exact ⟨h1, .error e⟩
  | @ok l l' hl =>
    have hw := lastW_units hl
    simp only [hw]
    cases l.getLast?.bind RotorAcc.W with
    | none => exact ⟨h1, .error _⟩
    | some W =>
      refine ⟨h1, .ok ⟨?_, rfl⟩⟩
      clear hw h1
      induction hl generalizing cs with
      | nil => simp
      | cons hx hl ih =>
        cases cs with
        | nil => simp
        | cons c cs =>
          simp only [List.map_cons, List.zipWith_cons_cons]
          refine .cons ⟨hx, power_units hx c.Omega, ?_⟩ (ih cs)
          cases b
          · exact .inl ⟨rfl, rfl⟩
          · exact .inr ⟨_, _, rfl, rfl, coefs_units h c hx⟩

/-! ## The constructor -/

/-- The arguments of the constructor in the new units -/
noncomputable def CCArgs.conv (u : Units) (x : CCArgs ℝ) : CCArgs ℝ :=
  { x with
    r := fun i => u.L * x.r i
    chord := fun i => u.L * x.chord i
    Rhub := u.L * x.Rhub
    Rtip := u.L * x.Rtip
    rho := u.dens * x.rho
    mu := u.visc * x.mu
    hubHt := u.L * x.hubHt
    precurve := x.precurve.map fun f i => u.L * f i
    precurveTip := u.L * x.precurveTip
    presweep := x.presweep.map fun f i => u.L * f i
    presweepTip := u.L * x.presweepTip }

theorem npInterp_units (n : ℕ) (x k : ℝ) (X Y : ℕ → ℝ) :
    ExRel (fun y y' => y' = k * y) (npInterp x (arr n fun i => (X i, Y i))) (npInterp x (arr n fun i => (X i, k * Y i))) := by
  have hp : ∀ (i : ℕ), (arr n fun i => (X i, k * Y i))[i]?.getD (0, 0)
      = (((arr n fun i => (X i, Y i))[i]?.getD (0, 0)).1, k * ((arr n fun i => (X i, Y i))[i]?.getD (0, 0)).2) := by
    intro i
    rcases lt_or_ge i n with hi | hi
    · rw [arr_getElem? _ _ _ hi, arr_getElem? _ _ _ hi]; rfl
    · rw [List.getElem?_eq_none (by rw [arr_length]; exact hi), List.getElem?_eq_none (by rw [arr_length]; exact hi)]
      simp
  unfold npInterp
  simp only [hp, arr_length]
  split_ifs
  · exact .error _
  · exact .ok rfl
  · exact .ok rfl
  · exact .ok rfl
  · exact .ok rfl
  · exact .ok (by ring)

theorem setAt_units (k : ℝ) (f : ℕ → ℝ) (j : ℕ) (v : ℝ) : setAt (fun i => k * f i) j (k * v) = fun i => k * setAt f j v i := by
  funext i
  unfold setAt
  split_ifs <;> rfl

/-- The constructor in the new units -/
theorem build_units (u : Units) (x : CCArgs ℝ) : ExRel (Rotor.Conv u) x.build (x.conv u).build := by
  have hnd : ∀ i j, (u.L * x.r i - u.L * x.r 0) / (u.L * x.r j - u.L * x.r 0) = (x.r i - x.r 0) / (x.r j - x.r 0) := fun i j => by
    rw [← mul_sub, ← mul_sub, mul_div_mul_left _ _ u.neL]
  have hbe : ∀ a b : ℝ, (u.L * a == u.L * b) = (a == b) := fun a b => by
    simp only [num_real, mul_eq_mul_left_iff, u.neL, or_false]
  have hc : (x.conv u).precurve.getD (fun _ => 0) = fun i => u.L * x.precurve.getD (fun _ => 0) i := by
    cases h : x.precurve <;> simp [CCArgs.conv, h]
  have hs : (x.conv u).presweep.getD (fun _ => 0) = fun i => u.L * x.presweep.getD (fun _ => 0) i := by
    cases h : x.presweep <;> simp [CCArgs.conv, h]
  have hct : (if (x.conv u).precurve.isNone then 0 else (x.conv u).precurveTip)
      = u.L * (if x.precurve.isNone then 0 else x.precurveTip) := by
    cases h : x.precurve <;> simp [CCArgs.conv, h]
  have hst : (if (x.conv u).presweep.isNone then 0 else (x.conv u).presweepTip)
      = u.L * (if x.presweep.isNone then 0 else x.presweepTip) := by
    cases h : x.presweep <;> simp [CCArgs.conv, h]
  unfold CCArgs.build
  simp only [hc, hs, hct, hst]
  simp only [show (x.conv u).n = x.n from rfl, show (x.conv u).r = fun i => u.L * x.r i from rfl, hnd,
    show (x.conv u).Rhub = u.L * x.Rhub from rfl, show (x.conv u).Rtip = u.L * x.Rtip from rfl, hbe]
  by_cases hn : x.n = 0
  · simp only [hn, if_true]
    exact .error _
  simp only [hn, if_false]
  refine (npInterp_units x.n _ u.L _ _).bind fun y1 z1 e1 => ?_
  refine (npInterp_units x.n _ u.L _ _).bind fun y2 z2 e2 => ?_
  refine (npInterp_units x.n _ u.L _ _).bind fun y3 z3 e3 => ?_
  refine (npInterp_units x.n _ u.L _ _).bind fun y4 z4 e4 => ?_
  subst e1 e2 e3 e4
  refine .ok ?_
  simp only [setAt_units]
  constructor <;> simp only [CCArgs.conv]
  · split_ifs <;> simp only [setAt_units]
  · generalize (if x.precurve.isNone = true then 0 else x.precurveTip) = t
    split_ifs <;> rfl
  · generalize (if x.presweep.isNone = true then 0 else x.presweepTip) = t
    split_ifs <;> rfl
  · ring
  · rfl

end Verif
