import Verif.Props.Rotor
import Verif.Props.LoadDict
import Verif.Props.Adjoint

/-!
# The derivative dictionaries of `evaluate` (C49, C50)
-/

namespace Verif

open Finset Filter Topology

/-! ## Specification -/

/-- The quantities a user can differentiate rotor outputs with respect to, in the user's units (angles in degrees);
`Uinf`, `Omega`, `pitch` are given per operating condition. -/
structure RotorDesign where
  r : ℕ → ℝ
  chord : ℕ → ℝ
  theta : ℕ → ℝ
  precurve : ℕ → ℝ
  presweep : ℕ → ℝ
  Rhub : ℝ
  Rtip : ℝ
  precone : ℝ
  tilt : ℝ
  hubHt : ℝ
  yaw : ℝ
  shear : ℝ
  precurveTip : ℝ
  presweepTip : ℝ
  Uinf : ℕ → ℝ
  Omega : ℕ → ℝ
  pitch : ℕ → ℝ

/-- The design at condition `m` and azimuth `az`. -/
def RotorDesign.cond (D : RotorDesign) (m : ℕ) (az : ℝ) : Design where
  r := D.r
  chord := D.chord
  theta := D.theta
  precurve := D.precurve
  presweep := D.presweep
  Rhub := D.Rhub
  Rtip := D.Rtip
  precone := D.precone
  tilt := D.tilt
  hubHt := D.hubHt
  yaw := D.yaw
  shear := D.shear
  azimuth := az
  Uinf := D.Uinf m
  Omega := D.Omega m
  pitch := D.pitch m

/-- The curve `D` of designs has velocity `V` at `t`. -/
structure RotorDesign.HasDeriv (n npts : ℕ) (D : ℝ → RotorDesign) (V : RotorDesign) (t : ℝ) : Prop where
  cond : ∀ m < npts, ∀ az, Design.HasDeriv n (fun s => (D s).cond m az) (V.cond m 0) t
  precurveTip : HasDerivAt (fun s => (D s).precurveTip) V.precurveTip t
  presweepTip : HasDerivAt (fun s => (D s).presweepTip) V.presweepTip t

/-- The object `R` with the attributes given by the design. -/
noncomputable def RotorDesign.rotor (R : Rotor ℝ) (D : RotorDesign) : Rotor ℝ :=
  { R with
    r := D.r, chord := D.chord, theta := fun j => D.theta j * (Real.pi / 180), precurve := D.precurve,
    presweep := D.presweep, Rhub := D.Rhub, Rtip := D.Rtip, precone := D.precone * (Real.pi / 180),
    tilt := D.tilt * (Real.pi / 180), hubHt := D.hubHt, yaw := D.yaw * (Real.pi / 180), shearExp := D.shear,
    precurveTip := D.precurveTip, presweepTip := D.presweepTip,
    rotorR := D.Rtip * Real.cos (D.precone * (Real.pi / 180)) + D.precurveTip * Real.sin (D.precone * (Real.pi / 180)) }

/-- The operating conditions. -/
def RotorDesign.conds (npts : ℕ) (D : RotorDesign) : List (Cond ℝ) :=
  (List.range npts).map fun m => ⟨D.Uinf m, D.Omega m, D.pitch m⟩

/-- The call of `evaluate` for the design. -/
noncomputable def RotorDesign.call (bq : RootFinder ℝ) (R : Rotor ℝ) (npts : ℕ) (co : Bool) (D : RotorDesign) :
    Except PyErr (EvalOut ℝ) :=
  (evaluate bq (D.rotor R) (D.conds npts) co).2

/-- The change of an output at condition `m` that the dictionary predicts for the velocity `V` of the design: row `m` of every
matrix times the velocity of the quantity that names it. -/
def rotorApply (n npts : ℕ) (dict : List (String × Mat ℝ)) (V : RotorDesign) (m : ℕ) : ℝ :=
  dictAt dict "dprecone" m 0 * V.precone + dictAt dict "dtilt" m 0 * V.tilt + dictAt dict "dhubHt" m 0 * V.hubHt
  + dictAt dict "dRhub" m 0 * V.Rhub + dictAt dict "dRtip" m 0 * V.Rtip
  + dictAt dict "dprecurveTip" m 0 * V.precurveTip + dictAt dict "dpresweepTip" m 0 * V.presweepTip
  + dictAt dict "dyaw" m 0 * V.yaw + dictAt dict "dshear" m 0 * V.shear
  + (∑ j ∈ range npts, dictAt dict "dUinf" m j * V.Uinf j)
  + (∑ j ∈ range npts, dictAt dict "dOmega" m j * V.Omega j)
  + (∑ j ∈ range npts, dictAt dict "dpitch" m j * V.pitch j)
  + (∑ j ∈ range n, dictAt dict "dr" m j * V.r j)
  + (∑ j ∈ range n, dictAt dict "dchord" m j * V.chord j)
  + (∑ j ∈ range n, dictAt dict "dtheta" m j * V.theta j)
  + (∑ j ∈ range n, dictAt dict "dprecurve" m j * V.precurve j)
  + (∑ j ∈ range n, dictAt dict "dpresweep" m j * V.presweep j)

/-- An output of condition `m`. -/
def outputAt (o : EvalOut ℝ) (f : CondOut ℝ → Quant ℝ) (m : ℕ) : ℝ := ((o.conds[m]?).map fun x => (f x).val).getD 0

/-- The dictionary of an output. -/
noncomputable def outputDict (n : ℕ) (o : EvalOut ℝ) (f : CondOut ℝ → Quant ℝ) : List (String × Mat ℝ) := rotorDict n (o.conds.map f)

/-! ## Helpers -/

/-- The twelve scalar velocities in the order of the code. -/
def RotorDesign.s (V : RotorDesign) (m : ℕ) : ℕ → ℝ
  | 0 => V.precone
  | 1 => V.tilt
  | 2 => V.hubHt
  | 3 => V.Rhub
  | 4 => V.Rtip
  | 5 => V.precurveTip
  | 6 => V.presweepTip
  | 7 => V.yaw
  | 8 => V.shear
  | 9 => V.Uinf m
  | 10 => V.Omega m
  | _ => V.pitch m

/-- The five vector velocities in the order of the code. -/
def RotorDesign.v (V : RotorDesign) : ℕ → ℕ → ℝ
  | 0 => V.r
  | 1 => V.chord
  | 2 => V.theta
  | 3 => V.precurve
  | _ => V.presweep

/-- The derivatives of a quantity applied to a velocity. -/
noncomputable def Quant.app (n : ℕ) (q : Quant ℝ) (V : RotorDesign) (m : ℕ) : ℝ :=
  ∑ k ∈ range 12, q.ds k * V.s m k + ∑ k ∈ range 5, ∑ i ∈ range n, q.dv k i * V.v k i

theorem Quant.app_sum (n ns : ℕ) (f : ℕ → Quant ℝ) (V : RotorDesign) (m : ℕ) :
    (Quant.sum ns f).app n V m = ∑ k ∈ range ns, (f k).app n V m := by
  simp only [Quant.app, Quant.sum, sum_mul]
  rw [sum_add_distrib, sum_comm]
  congr 1
  rw [sum_congr rfl fun k _ => sum_comm (s := range n) (t := range ns)]
  exact sum_comm

theorem Quant.app_map2 (n : ℕ) (x y : Quant ℝ) (V : RotorDesign) (m : ℕ) (f : ℝ → ℝ → ℝ) (a b : ℝ)
    (hf : ∀ u v, f u v = a * u + b * v) : (x.map2 f y).app n V m = a * x.app n V m + b * y.app n V m := by
  simp only [Quant.app, Quant.map2, hf, add_mul, sum_add_distrib, mul_add, mul_sum, mul_assoc]
  ring

/-- The prediction of the dictionary is that of the derivatives of the condition. -/
theorem rotorApply_eq (n npts : ℕ) (qs : List (Quant ℝ)) (m : ℕ) (hm : m < npts) (q : Quant ℝ)
    (hq : qs[m]? = some q) (V : RotorDesign) : rotorApply n npts (rotorDict n qs) V m = q.app n V m := by
  have hdiag : ∀ (f : ℕ → ℝ) (w : ℕ → ℝ), ∑ j ∈ range npts, (if m = j then f m else 0) * w j = f m * w m := by
    intro f w
    rw [sum_eq_single m]
    · simp
    · intro b _ hb; simp [hb.symm]
    · intro h; exact absurd (mem_range.mpr hm) h
  have hs : ∀ k, ((qs[m]?).map (fun q => q.ds k)).getD 0 = q.ds k := by intro k; rw [hq]; rfl
  have hv : ∀ k j, ((qs[m]?).map (fun q => q.dv k j)).getD 0 = q.dv k j := by intro k j; rw [hq]; rfl
  have c0 : dictAt (rotorDict n qs) "dprecone" m 0 = q.ds 0 := hs 0
  have c1 : dictAt (rotorDict n qs) "dtilt" m 0 = q.ds 1 := hs 1
  have c2 : dictAt (rotorDict n qs) "dhubHt" m 0 = q.ds 2 := hs 2
  have c3 : dictAt (rotorDict n qs) "dRhub" m 0 = q.ds 3 := hs 3
  have c4 : dictAt (rotorDict n qs) "dRtip" m 0 = q.ds 4 := hs 4
  have c5 : dictAt (rotorDict n qs) "dprecurveTip" m 0 = q.ds 5 := hs 5
  have c6 : dictAt (rotorDict n qs) "dpresweepTip" m 0 = q.ds 6 := hs 6
  have c7 : dictAt (rotorDict n qs) "dyaw" m 0 = q.ds 7 := hs 7
  have c8 : dictAt (rotorDict n qs) "dshear" m 0 = q.ds 8 := hs 8
  have c9 : ∀ j, dictAt (rotorDict n qs) "dUinf" m j = if m = j then q.ds 9 else 0 := by intro j; rw [← hs 9]; rfl
  have c10 : ∀ j, dictAt (rotorDict n qs) "dOmega" m j = if m = j then q.ds 10 else 0 := by intro j; rw [← hs 10]; rfl
  have c11 : ∀ j, dictAt (rotorDict n qs) "dpitch" m j = if m = j then q.ds 11 else 0 := by intro j; rw [← hs 11]; rfl
  have d0 : ∀ j, dictAt (rotorDict n qs) "dr" m j = q.dv 0 j := hv 0
  have d1 : ∀ j, dictAt (rotorDict n qs) "dchord" m j = q.dv 1 j := hv 1
  have d2 : ∀ j, dictAt (rotorDict n qs) "dtheta" m j = q.dv 2 j := hv 2
  have d3 : ∀ j, dictAt (rotorDict n qs) "dprecurve" m j = q.dv 3 j := hv 3
  have d4 : ∀ j, dictAt (rotorDict n qs) "dpresweep" m j = q.dv 4 j := hv 4
  simp only [rotorApply, c0, c1, c2, c3, c4, c5, c6, c7, c8, c9, c10, c11, d0, d1, d2, d3, d4,
    hdiag (fun _ => q.ds 9), hdiag (fun _ => q.ds 10), hdiag (fun _ => q.ds 11)]
  simp only [Quant.app, sum_range_succ _ 11, sum_range_succ _ 10, sum_range_succ _ 9, sum_range_succ _ 8, sum_range_succ _ 7,
    sum_range_succ _ 6, sum_range_succ _ 5, sum_range_succ _ 4, sum_range_succ _ 3, sum_range_succ _ 2, sum_range_succ _ 1,
    sum_range_succ _ 0, sum_range_zero, RotorDesign.s, RotorDesign.v]
  ring

/-- What the load dictionary predicts. -/
theorem dictApply_loadDict (n : ℕ) (dX dc : ℕ → ℕ → ℝ) (W : Design) (i : ℕ) (hi : i < n) :
    dictApply n (loadDict n dX dc) W i = dX 0 i * W.r i + dX 1 i * W.chord i + dX 2 i * W.theta i
      + (∑ j ∈ range n, dc j i * W.precurve j) + dX 5 i * W.presweep i + dX 3 i * W.Rhub + dX 4 i * W.Rtip
      + dX 6 i * W.precone + dX 7 i * W.tilt + dX 8 i * W.hubHt + dX 9 i * W.yaw + dX 10 i * W.shear
      + dX 11 i * W.azimuth + dX 12 i * W.Uinf + dX 13 i * W.Omega + dX 14 i * W.pitch := by
  have hdiag : ∀ (f w : ℕ → ℝ), ∑ j ∈ range n, (if i = j then f i else 0) * w j = f i * w i := by
    intro f w
    rw [sum_eq_single i]
    · simp
    · intro b _ hb; simp [hb.symm]
    · intro h; exact absurd (mem_range.mpr hi) h
  have a1 : dictAt (loadDict n dX dc) "dr" i = (matDiag n (dX 0)).get i := rfl
  have a2 : dictAt (loadDict n dX dc) "dchord" i = (matDiag n (dX 1)).get i := rfl
  have a3 : dictAt (loadDict n dX dc) "dtheta" i = (matDiag n (dX 2)).get i := rfl
  have a4 : dictAt (loadDict n dX dc) "dprecurve" i = fun j => dc j i := rfl
  have a5 : dictAt (loadDict n dX dc) "dpresweep" i = (matDiag n (dX 5)).get i := rfl
  have b1 : dictAt (loadDict n dX dc) "dRhub" i 0 = dX 3 i := rfl
  have b2 : dictAt (loadDict n dX dc) "dRtip" i 0 = dX 4 i := rfl
  have b3 : dictAt (loadDict n dX dc) "dprecone" i 0 = dX 6 i := rfl
  have b4 : dictAt (loadDict n dX dc) "dtilt" i 0 = dX 7 i := rfl
  have b5 : dictAt (loadDict n dX dc) "dhubHt" i 0 = dX 8 i := rfl
  have b6 : dictAt (loadDict n dX dc) "dyaw" i 0 = dX 9 i := rfl
  have b7 : dictAt (loadDict n dX dc) "dshear" i 0 = dX 10 i := rfl
  have b8 : dictAt (loadDict n dX dc) "dazimuth" i 0 = dX 11 i := rfl
  have b9 : dictAt (loadDict n dX dc) "dUinf" i 0 = dX 12 i := rfl
  have b10 : dictAt (loadDict n dX dc) "dOmega" i 0 = dX 13 i := rfl
  have b11 : dictAt (loadDict n dX dc) "dpitch" i 0 = dX 14 i := rfl
  simp only [dictApply, a1, a2, a3, a4, a5, b1, b2, b3, b4, b5, b6, b7, b8, b9, b10, b11, matDiag, hdiag]

/-- The chain rule of `__thrustTorqueDeriv`: the derivatives of a blade integral it assembles, applied to a velocity of the
design, are the gradient of the integration applied to the velocities of loads and shape. -/
theorem ttDeriv_app (R : Rotor ℝ) (Np Tp : ℕ → ℝ) (J : LoadJac ℝ) (w : TTSeed ℝ) (V : RotorDesign) (m : ℕ) (val : ℝ) :
    (⟨val, (ttDeriv R Np Tp J w).ds, (ttDeriv R Np Tp J w).dv⟩ : Quant ℝ).app R.n V m
      = (thrustTorqueBv R.n Np Tp R.r R.precurve R.presweep R.precone R.Rhub R.Rtip R.precurveTip R.presweepTip w).apply R.n
        ⟨dictApply R.n (loadDict R.n J.dNp_dX J.dNp_dprecurve) (V.cond m 0),
          dictApply R.n (loadDict R.n J.dTp_dX J.dTp_dprecurve) (V.cond m 0),
          V.r, V.precurve, V.presweep, V.precone * (Real.pi / 180), V.Rhub, V.Rtip, V.precurveTip, V.presweepTip⟩ := by
  simp only [TTBvOut.apply]
  have h1 : ∀ (f : ℕ → ℝ) (dX dc : ℕ → ℕ → ℝ), ∑ i ∈ range R.n, f i * dictApply R.n (loadDict R.n dX dc) (V.cond m 0) i
      = ∑ i ∈ range R.n, f i * (dX 0 i * V.r i + dX 1 i * V.chord i + dX 2 i * V.theta i
      + dX 5 i * V.presweep i + dX 3 i * V.Rhub + dX 4 i * V.Rtip
      + dX 6 i * V.precone + dX 7 i * V.tilt + dX 8 i * V.hubHt + dX 9 i * V.yaw + dX 10 i * V.shear
      + dX 12 i * V.Uinf m + dX 13 i * V.Omega m + dX 14 i * V.pitch m)
      + ∑ j ∈ range R.n, (∑ i ∈ range R.n, f i * dc j i) * V.precurve j := by
    intro f dX dc
    simp only [sum_mul]
    rw [sum_comm (s := range R.n) (t := range R.n), ← sum_add_distrib]
    refine sum_congr rfl fun i hi => ?_
    rw [dictApply_loadDict _ _ _ _ _ (mem_range.mp hi)]
    simp only [RotorDesign.cond, mul_add, mul_sum]
    rw [show ∑ j ∈ range R.n, f i * dc j i * V.precurve j = ∑ j ∈ range R.n, f i * (dc j i * V.precurve j) from
      sum_congr rfl fun _ _ => by ring]
    ring
  rw [h1, h1]
  set g := thrustTorqueBv R.n Np Tp R.r R.precurve R.presweep R.precone R.Rhub R.Rtip R.precurveTip R.presweepTip w with hg
  simp only [Quant.app, sum_range_succ _ 11, sum_range_succ _ 10, sum_range_succ _ 9, sum_range_succ _ 8, sum_range_succ _ 7,
    sum_range_succ _ 6, sum_range_succ _ 5, sum_range_succ _ 4, sum_range_succ _ 3, sum_range_succ _ 2, sum_range_succ _ 1,
    sum_range_succ _ 0, sum_range_zero, RotorDesign.s, RotorDesign.v, ttDeriv, ← hg, num_real, zero_add]
  simp only [add_mul, sum_add_distrib, sum_mul, mul_add, mul_assoc]
  ring

/-- The blade of a design with the given loads. -/
noncomputable def RotorDesign.blade (D : RotorDesign) (Np Tp : ℕ → ℝ) : TTIn :=
  ⟨Np, Tp, D.r, D.precurve, D.presweep, D.precone * (Real.pi / 180), D.Rhub, D.Rtip, D.precurveTip, D.presweepTip⟩

theorem loads_snd {α : Type} [Num α] (bq : RootFinder α) (R : Rotor α) (Uinf Omega pitch az : α) :
    (distributedAeroLoads bq R Uinf Omega pitch az).2
      = (solveStations bq R (deg2rad pitch) Omega (rotorWind R Uinf Omega (deg2rad az)) R.n).map fun s =>
          ⟨s, if R.derivatives then loadDict R.n (loadJac R Uinf Omega (deg2rad az) s).dNp_dX
              (loadJac R Uinf Omega (deg2rad az) s).dNp_dprecurve else [],
            if R.derivatives then loadDict R.n (loadJac R Uinf Omega (deg2rad az) s).dTp_dX
              (loadJac R Uinf Omega (deg2rad az) s).dTp_dprecurve else []⟩ := by
  unfold distributedAeroLoads
  simp only
  generalize solveStations bq R _ _ _ _ = x
  cases x with
  | error e => rfl
  | ok s => cases hd : R.derivatives <;> rfl

/-- The loads do not depend on the tip attributes. -/
theorem RotorDesign.loads_eq (bq : RootFinder ℝ) (R : Rotor ℝ) (D : RotorDesign) (m : ℕ) (az : ℝ) :
    (distributedAeroLoads bq (D.rotor R) (D.Uinf m) (D.Omega m) (D.pitch m) az).2 = (D.cond m az).call bq R := by
  have hs : ∀ pitch Omega V k, solveStations bq (D.rotor R) pitch Omega V k
      = solveStations bq ((D.cond m az).rotor R) pitch Omega V k := fun pitch Omega V k =>
    solveStations_congr fun i _ => SameCore.solveStation (S := D.rotor R) (R := (D.cond m az).rotor R)
      ⟨rfl, rfl, rfl, rfl, rfl, rfl, rfl, rfl⟩ bq _ _ _ i rfl rfl rfl rfl (fun _ => rfl)
  rw [Design.call, loads_snd, loads_snd, hs]
  rfl

/-- The dictionaries of a successful call. -/
theorem loads_dicts {bq : RootFinder ℝ} {R : Rotor ℝ} {Uinf Omega pitch az : ℝ} {L : LoadsOut ℝ} (hd : R.derivatives = true)
    (h : (distributedAeroLoads bq R Uinf Omega pitch az).2 = .ok L) :
    let J := loadJac R Uinf Omega (deg2rad az) L.stations
    L.dNp = loadDict R.n J.dNp_dX J.dNp_dprecurve ∧ L.dTp = loadDict R.n J.dTp_dX J.dTp_dprecurve := by
  unfold distributedAeroLoads at h
  simp only at h
  split at h
  · simp at h
  · rw [if_pos hd] at h
    simp only [Except.ok.injEq] at h
    rw [← h]
    exact ⟨rfl, rfl⟩

/-- What is known of a condition in a call of `evaluate`. -/
theorem RotorDesign.entry {bq : RootFinder ℝ} {R : Rotor ℝ} {npts : ℕ} {co : Bool} {D : RotorDesign} {o : EvalOut ℝ}
    (h : D.call bq R npts co = .ok o) {m : ℕ} (hm : m < npts) :
    ∃ x, o.conds[m]? = some x ∧ condAcc bq (D.rotor R) ⟨D.Uinf m, D.Omega m, D.pitch m⟩ = .ok x.acc ∧
      x.P = power x.acc.Q (D.Omega m) ∧
      x.C = (if co then some (coefs (D.rotor R) ⟨D.Uinf m, D.Omega m, D.pitch m⟩ x.acc) else none) ∧
      o.conds.length = npts := by
  have hc : (D.conds npts)[m]? = some ⟨D.Uinf m, D.Omega m, D.pitch m⟩ := by
    simp [RotorDesign.conds, List.getElem?_map, List.getElem?_range hm]
  have hl : o.conds.length = npts := by rw [evaluate_length h]; simp [RotorDesign.conds]
  have hx : o.conds[m]? = some o.conds[m] := List.getElem?_eq_getElem (by omega)
  obtain ⟨h1, h2, h3⟩ := evaluate_entry h hc hx
  exact ⟨_, hx, h1, h2, h3, hl⟩

/-- The accumulated quantities in terms of the loads of the sectors. -/
theorem RotorDesign.acc_sum {bq : RootFinder ℝ} {R : Rotor ℝ} {D : RotorDesign} {m : ℕ} {a : RotorAcc ℝ}
    (h : condAcc bq (D.rotor R) ⟨D.Uinf m, D.Omega m, D.pitch m⟩ = .ok a) (L : ℕ → LoadsOut ℝ)
    (hL : ∀ k < R.nSector, (D.cond m (k * (360 / R.nSector))).call bq R = .ok (L k)) :
      let q := fun k => bladeQuant (D.rotor R)
        (some (loadJac (D.rotor R) (D.Uinf m) (D.Omega m) (sectorAz R.nSector k) (L k).stations)) (L k)
      let t := fun k => bladeInt (D.rotor R) (L k)
      let ca := fun k => Real.cos (sectorAz R.nSector k)
      let sa := fun k => Real.sin (sectorAz R.nSector k)
      let B : ℝ := R.B
      let ns : ℝ := R.nSector
      let S := Quant.sum R.nSector
      a.T = (S fun k => (q k (t k).T seedT).map2 (fun x _ => B * x / ns) (q k (t k).T seedT)) ∧
      a.Y = (S fun k => (q k (t k).Y seedY).map2 (fun y z => B * (y * ca k - z * sa k) / ns) (q k (t k).Z seedZ)) ∧
      a.Z = (S fun k => (q k (t k).Z seedZ).map2 (fun z y => B * (z * ca k + y * sa k) / ns) (q k (t k).Y seedY)) ∧
      a.Q = (S fun k => (q k (t k).Q seedQ).map2 (fun x _ => B * x / ns) (q k (t k).Q seedQ)) ∧
      a.My = (S fun k => (q k (t k).M seedM).map2 (fun x _ => B * x * ca k / ns) (q k (t k).M seedM)) ∧
      a.Mz = (S fun k => (q k (t k).M seedM).map2 (fun x _ => B * x * sa k / ns) (q k (t k).M seedM)) ∧
      a.Mb = (S fun k => (q k (t k).M seedM).map2 (fun x _ => x / ns) (q k (t k).M seedM)) := by
  obtain ⟨L', hL', h1, h2, h3, h4, h5, h6, h7, -⟩ := condAcc_sum h
  have e : ∀ k < R.nSector, L' k = L k := by
    intro k hk
    have := hL' k hk
    rw [RotorDesign.loads_eq] at this
    exact (Except.ok.inj ((hL k hk).symm.trans this)).symm
  have es : ∀ f : ℕ → LoadsOut ℝ → Quant ℝ, (Quant.sum R.nSector fun k => f k (L' k)) = Quant.sum R.nSector fun k => f k (L k) := by
    intro f
    simp only [Quant.sum]
    have : ∀ g : ℕ → LoadsOut ℝ → ℝ, ∑ k ∈ range R.nSector, g k (L' k) = ∑ k ∈ range R.nSector, g k (L k) :=
      fun g => sum_congr rfl fun k hk => by rw [e k (mem_range.mp hk)]
    congr 1
    · exact this fun k l => (f k l).val
    · funext j; exact this fun k l => (f k l).ds j
    · funext j i; exact this fun k l => (f k l).dv j i
  let Q := fun k (l : LoadsOut ℝ) => bladeQuant (D.rotor R)
    (some (loadJac (D.rotor R) (D.Uinf m) (D.Omega m) (sectorAz R.nSector k) l.stations)) l
  let t := fun (l : LoadsOut ℝ) => bladeInt (D.rotor R) l
  let ca := fun k => Real.cos (sectorAz R.nSector k)
  let sa := fun k => Real.sin (sectorAz R.nSector k)
  let B : ℝ := R.B
  let ns : ℝ := R.nSector
  exact ⟨h1.trans (es fun k l => (Q k l (t l).T seedT).map2 (fun x _ => B * x / ns) (Q k l (t l).T seedT)),
    h2.trans (es fun k l => (Q k l (t l).Y seedY).map2 (fun y z => B * (y * ca k - z * sa k) / ns) (Q k l (t l).Z seedZ)),
    h3.trans (es fun k l => (Q k l (t l).Z seedZ).map2 (fun z y => B * (z * ca k + y * sa k) / ns) (Q k l (t l).Y seedY)),
    h4.trans (es fun k l => (Q k l (t l).Q seedQ).map2 (fun x _ => B * x / ns) (Q k l (t l).Q seedQ)),
    h5.trans (es fun k l => (Q k l (t l).M seedM).map2 (fun x _ => B * x * ca k / ns) (Q k l (t l).M seedM)),
    h6.trans (es fun k l => (Q k l (t l).M seedM).map2 (fun x _ => B * x * sa k / ns) (Q k l (t l).M seedM)),
    h7.trans (es fun k l => (Q k l (t l).M seedM).map2 (fun x _ => x / ns) (Q k l (t l).M seedM))⟩

/-- The derivative of a blade integral along the curve of designs, for the sector with loads `L`. -/
theorem blade_deriv {bq : RootFinder ℝ} {R : Rotor ℝ} (hder : R.derivatives = true) {npts : ℕ}
    {D : ℝ → RotorDesign} {V : RotorDesign} {t : ℝ} (hV : RotorDesign.HasDeriv R.n npts D V t) {m : ℕ} (hm : m < npts)
    {az : ℝ} {L : ℝ → LoadsOut ℝ} (hL : ((D t).cond m az).call bq R = .ok (L t))
    (hload : ∀ i < R.n,
      HasDerivAt (fun s => stationArr (L s).stations SecLoads.Np i) (dictApply R.n (L t).dNp (V.cond m 0) i) t ∧
      HasDerivAt (fun s => stationArr (L s).stations SecLoads.Tp i) (dictApply R.n (L t).dTp (V.cond m 0) i) t)
    (hreg : ((D t).blade (fun _ => 0) (fun _ => 0)).Regular R.n) (w : TTSeed ℝ) (val : ℝ) :
    HasDerivAt (fun s => w.weigh (bladeInt ((D s).rotor R) (L s)))
      ((bladeQuant ((D t).rotor R) (some (loadJac ((D t).rotor R) ((D t).Uinf m) ((D t).Omega m) (deg2rad az) (L t).stations))
        (L t) val w).app R.n V m) t := by
  set J := loadJac ((D t).rotor R) ((D t).Uinf m) ((D t).Omega m) (deg2rad az) (L t).stations with hJ
  obtain ⟨e1, e2⟩ := loads_dicts (R := ((D t).cond m az).rotor R) hder hL
  have e1' : (L t).dNp = loadDict R.n J.dNp_dX J.dNp_dprecurve := e1
  have e2' : (L t).dTp = loadDict R.n J.dTp_dX J.dTp_dprecurve := e2
  have hq : bladeQuant ((D t).rotor R) (some J) (L t) val w
      = ⟨val, (ttDeriv ((D t).rotor R) (stationArr (L t).stations SecLoads.Np) (stationArr (L t).stations SecLoads.Tp) J w).ds,
        (ttDeriv ((D t).rotor R) (stationArr (L t).stations SecLoads.Np) (stationArr (L t).stations SecLoads.Tp) J w).dv⟩ := by
    have : ((D t).rotor R).derivatives = true := hder
    simp only [bladeQuant, this, if_true]
  have happ := ttDeriv_app ((D t).rotor R) (stationArr (L t).stations SecLoads.Np) (stationArr (L t).stations SecLoads.Tp) J w V m
    val
  rw [hq]
  refine HasDerivAt.congr_deriv ?_ happ.symm
  have hc := hV.cond m hm az
  exact thrustTorqueBv_correct R.n (fun s => (D s).blade (stationArr (L s).stations SecLoads.Np)
    (stationArr (L s).stations SecLoads.Tp)) _ t w
    ⟨fun i hi => (hload i hi).1.congr_deriv (by rw [e1']; rfl), fun i hi => (hload i hi).2.congr_deriv (by rw [e2']; rfl), hc.r, hc.precurve,
      hc.presweep, hc.precone.mul_const _, hc.Rhub, hc.Rtip, hV.precurveTip, hV.presweepTip⟩ ⟨hreg.1, hreg.2⟩

/-! ## C49 -/

/-- **C49** The dictionaries `dT`, `dY`, `dZ`, `dQ`, `dMy`, `dMz`, `dMb` of `evaluate` hold under every key the derivative with
respect to the quantity of that name: whatever quantities change along the design curve `D`, alone or together, the output of
condition `m` changes by row `m` of the stored matrices times the changes of the quantities that name them, provided that the
load dictionaries of the sectors are exact (`loads_dictionary`) and the blade is regular. -/
theorem rotor_dictionary (bq : RootFinder ℝ) (R : Rotor ℝ) (hder : R.derivatives = true) (npts : ℕ) (co : Bool)
    (D : ℝ → RotorDesign) (V : RotorDesign) (t : ℝ) (hV : RotorDesign.HasDeriv R.n npts D V t) (o : ℝ → EvalOut ℝ)
    (hcall : ∀ᶠ s in 𝓝 t, (D s).call bq R npts co = .ok (o s)) (m : ℕ) (hm : m < npts) (L : ℝ → ℕ → LoadsOut ℝ)
    (hL : ∀ᶠ s in 𝓝 t, ∀ k < R.nSector, ((D s).cond m (k * (360 / R.nSector))).call bq R = .ok (L s k))
    (hload : ∀ k < R.nSector, ∀ i < R.n,
      HasDerivAt (fun s => stationArr (L s k).stations SecLoads.Np i) (dictApply R.n (L t k).dNp (V.cond m 0) i) t ∧
      HasDerivAt (fun s => stationArr (L s k).stations SecLoads.Tp i) (dictApply R.n (L t k).dTp (V.cond m 0) i) t)
    (hreg : ((D t).blade (fun _ => 0) (fun _ => 0)).Regular R.n) :
    ∀ f ∈ [fun x : CondOut ℝ => x.acc.T, fun x => x.acc.Y, fun x => x.acc.Z, fun x => x.acc.Q, fun x => x.acc.My,
        fun x => x.acc.Mz, fun x => x.acc.Mb],
      HasDerivAt (fun s => outputAt (o s) f m) (rotorApply R.n npts (outputDict R.n (o t) f) V m) t := by
  have hd2 : ∀ k < R.nSector, deg2rad ((k : ℝ) * (360 / R.nSector)) = sectorAz R.nSector k := by
    intro k hk
    have : (R.nSector : ℝ) ≠ 0 := by exact_mod_cast (by omega : R.nSector ≠ 0)
    simp only [num_real, sectorAz]
    field_simp
    ring
  have hval : ∀ (R' : Rotor ℝ) J L v w, (bladeQuant R' J L v w).val = v := by
    intro R' J L v w
    simp only [bladeQuant]
    generalize (if R'.derivatives = true then J else none) = j
    cases j <;> rfl
  -- the derivative of each blade integral
  have hb : ∀ (w : TTSeed ℝ) (val : ℝ), ∀ k < R.nSector, HasDerivAt (fun s => w.weigh (bladeInt ((D s).rotor R) (L s k)))
      ((bladeQuant ((D t).rotor R) (some (loadJac ((D t).rotor R) ((D t).Uinf m) ((D t).Omega m) (sectorAz R.nSector k)
        (L t k).stations)) (L t k) val w).app R.n V m) t := by
    intro w val k hk
    rw [← hd2 k hk]
    exact blade_deriv hder hV hm (L := fun s => L s k) (hL.self_of_nhds k hk) (hload k hk) hreg w val
  -- sums
  have key : ∀ (f : CondOut ℝ → Quant ℝ) (F : ℝ → ℕ → LoadsOut ℝ → Quant ℝ),
      (∀ s (L' : ℕ → LoadsOut ℝ), ∀ x : CondOut ℝ, condAcc bq ((D s).rotor R) ⟨(D s).Uinf m, (D s).Omega m, (D s).pitch m⟩ = .ok x.acc →
        (∀ k < R.nSector, ((D s).cond m (k * (360 / R.nSector))).call bq R = .ok (L' k)) →
        f x = Quant.sum R.nSector fun k => F s k (L' k)) →
      (∀ k < R.nSector, HasDerivAt (fun s => (F s k (L s k)).val) ((F t k (L t k)).app R.n V m) t) →
      HasDerivAt (fun s => outputAt (o s) f m) (rotorApply R.n npts (outputDict R.n (o t) f) V m) t := by
    intro f F hF hk
    have hs := HasDerivAt.fun_sum (u := range R.nSector) fun k hk' => hk k (mem_range.mp hk')
    have hnear : (fun s => outputAt (o s) f m) =ᶠ[𝓝 t] fun s => ∑ k ∈ range R.nSector, (F s k (L s k)).val := by
      filter_upwards [hcall, hL] with s h1 h2
      obtain ⟨x, hx, ha, -⟩ := RotorDesign.entry h1 hm
      simp only [outputAt, hx, Option.map_some, Option.getD_some, hF s (L s) x ha h2]
      rfl
    refine (hs.congr_of_eventuallyEq hnear).congr_deriv ?_
    obtain ⟨x, hx, ha, -, -, hlen⟩ := RotorDesign.entry hcall.self_of_nhds hm
    rw [outputDict, rotorApply_eq R.n npts _ m hm (f x) (by rw [List.getElem?_map, hx]; rfl),
      hF t (L t) x ha hL.self_of_nhds, Quant.app_sum]
  intro f hf
  simp only [List.mem_cons, List.not_mem_nil, or_false] at hf
  have eT : ∀ y : TTOut ℝ, seedT.weigh y = y.T := by intro y; simp [TTSeed.weigh, seedT]
  have eY : ∀ y : TTOut ℝ, seedY.weigh y = y.Y := by intro y; simp [TTSeed.weigh, seedY]
  have eZ : ∀ y : TTOut ℝ, seedZ.weigh y = y.Z := by intro y; simp [TTSeed.weigh, seedZ]
  have eQ : ∀ y : TTOut ℝ, seedQ.weigh y = y.Q := by intro y; simp [TTSeed.weigh, seedQ]
  have eM : ∀ y : TTOut ℝ, seedM.weigh y = y.M := by intro y; simp [TTSeed.weigh, seedM]
  have bT := hb seedT
  have bY := hb seedY
  have bZ := hb seedZ
  have bQ := hb seedQ
  have bM := hb seedM
  simp only [eT] at bT
  simp only [eY] at bY
  simp only [eZ] at bZ
  simp only [eQ] at bQ
  simp only [eM] at bM
  let G := fun s k (l : LoadsOut ℝ) => bladeQuant ((D s).rotor R)
    (some (loadJac ((D s).rotor R) ((D s).Uinf m) ((D s).Omega m) (sectorAz R.nSector k) l.stations)) l
  let I := fun s (l : LoadsOut ℝ) => bladeInt ((D s).rotor R) l
  let ca := fun k => Real.cos (sectorAz R.nSector k)
  let sa := fun k => Real.sin (sectorAz R.nSector k)
  let B : ℝ := R.B
  let ns : ℝ := R.nSector
  rcases hf with rfl | rfl | rfl | rfl | rfl | rfl | rfl
  · refine key _ (fun s k l => (G s k l (I s l).T seedT).map2 (fun x _ => B * x / ns) (G s k l (I s l).T seedT))
      (fun s L' x h1 h2 => (RotorDesign.acc_sum h1 L' h2).1) fun k hk => ?_
    rw [Quant.app_map2 _ _ _ _ _ _ ((R.B : ℝ) / R.nSector) 0 (by intros; simp only [B, ns, ca, sa]; ring)]
    simp only [Quant.map2, G, I, B, ns, ca, sa, hval]
    exact (((bT (bladeInt ((D t).rotor R) (L t k)).T k hk).const_mul (R.B : ℝ)).div_const _).congr_deriv (by ring)
  · refine key _ (fun s k l => (G s k l (I s l).Y seedY).map2 (fun y z => B * (y * ca k - z * sa k) / ns) (G s k l (I s l).Z seedZ))
      (fun s L' x h1 h2 => (RotorDesign.acc_sum h1 L' h2).2.1) fun k hk => ?_
    rw [Quant.app_map2 _ _ _ _ _ _ ((R.B : ℝ) * Real.cos (sectorAz R.nSector k) / R.nSector)
      (-((R.B : ℝ) * Real.sin (sectorAz R.nSector k) / R.nSector)) (by intros; simp only [B, ns, ca, sa]; ring)]
    simp only [Quant.map2, G, I, B, ns, ca, sa, hval]
    exact (((((bY (bladeInt ((D t).rotor R) (L t k)).Y k hk).mul_const _).sub ((bZ (bladeInt ((D t).rotor R) (L t k)).Z k hk).mul_const _)).const_mul (R.B : ℝ)).div_const _).congr_deriv (by ring)
  · refine key _ (fun s k l => (G s k l (I s l).Z seedZ).map2 (fun z y => B * (z * ca k + y * sa k) / ns) (G s k l (I s l).Y seedY))
      (fun s L' x h1 h2 => (RotorDesign.acc_sum h1 L' h2).2.2.1) fun k hk => ?_
    rw [Quant.app_map2 _ _ _ _ _ _ ((R.B : ℝ) * Real.cos (sectorAz R.nSector k) / R.nSector)
      ((R.B : ℝ) * Real.sin (sectorAz R.nSector k) / R.nSector) (by intros; simp only [B, ns, ca, sa]; ring)]
    simp only [Quant.map2, G, I, B, ns, ca, sa, hval]
    exact (((((bZ (bladeInt ((D t).rotor R) (L t k)).Z k hk).mul_const _).add ((bY (bladeInt ((D t).rotor R) (L t k)).Y k hk).mul_const _)).const_mul (R.B : ℝ)).div_const _).congr_deriv (by ring)
  · refine key _ (fun s k l => (G s k l (I s l).Q seedQ).map2 (fun x _ => B * x / ns) (G s k l (I s l).Q seedQ))
      (fun s L' x h1 h2 => (RotorDesign.acc_sum h1 L' h2).2.2.2.1) fun k hk => ?_
    rw [Quant.app_map2 _ _ _ _ _ _ ((R.B : ℝ) / R.nSector) 0 (by intros; simp only [B, ns, ca, sa]; ring)]
    simp only [Quant.map2, G, I, B, ns, ca, sa, hval]
    exact (((bQ (bladeInt ((D t).rotor R) (L t k)).Q k hk).const_mul (R.B : ℝ)).div_const _).congr_deriv (by ring)
  · refine key _ (fun s k l => (G s k l (I s l).M seedM).map2 (fun x _ => B * x * ca k / ns) (G s k l (I s l).M seedM))
      (fun s L' x h1 h2 => (RotorDesign.acc_sum h1 L' h2).2.2.2.2.1) fun k hk => ?_
    rw [Quant.app_map2 _ _ _ _ _ _ ((R.B : ℝ) * Real.cos (sectorAz R.nSector k) / R.nSector) 0 (by intros; simp only [B, ns, ca, sa]; ring)]
    simp only [Quant.map2, G, I, B, ns, ca, sa, hval]
    exact ((((bM (bladeInt ((D t).rotor R) (L t k)).M k hk).const_mul (R.B : ℝ)).mul_const _).div_const _).congr_deriv (by ring)
  · refine key _ (fun s k l => (G s k l (I s l).M seedM).map2 (fun x _ => B * x * sa k / ns) (G s k l (I s l).M seedM))
      (fun s L' x h1 h2 => (RotorDesign.acc_sum h1 L' h2).2.2.2.2.2.1) fun k hk => ?_
    rw [Quant.app_map2 _ _ _ _ _ _ ((R.B : ℝ) * Real.sin (sectorAz R.nSector k) / R.nSector) 0 (by intros; simp only [B, ns, ca, sa]; ring)]
    simp only [Quant.map2, G, I, B, ns, ca, sa, hval]
    exact ((((bM (bladeInt ((D t).rotor R) (L t k)).M k hk).const_mul (R.B : ℝ)).mul_const _).div_const _).congr_deriv (by ring)
  · refine key _ (fun s k l => (G s k l (I s l).M seedM).map2 (fun x _ => x / ns) (G s k l (I s l).M seedM))
      (fun s L' x h1 h2 => (RotorDesign.acc_sum h1 L' h2).2.2.2.2.2.2) fun k hk => ?_
    rw [Quant.app_map2 _ _ _ _ _ _ (1 / (R.nSector : ℝ)) 0 (by intros; simp only [B, ns, ca, sa]; ring)]
    simp only [Quant.map2, G, I, B, ns, ca, sa, hval]
    exact ((bM (bladeInt ((D t).rotor R) (L t k)).M k hk).div_const _).congr_deriv (by ring)

/-! ## C50 -/

/-- A coefficient of a condition, when coefficients were requested. -/
noncomputable def coefOf (g : Coefs ℝ → Quant ℝ) (x : CondOut ℝ) : Quant ℝ := (x.C.map g).getD Quant.zero

/-- The rotor radius of a design. -/
noncomputable def RotorDesign.radius (D : RotorDesign) : ℝ :=
  D.Rtip * Real.cos (D.precone * (Real.pi / 180)) + D.precurveTip * Real.sin (D.precone * (Real.pi / 180))

/-- Its rate of change. -/
noncomputable def RotorDesign.radiusRate (D V : RotorDesign) : ℝ :=
  V.Rtip * Real.cos (D.precone * (Real.pi / 180)) + V.precurveTip * Real.sin (D.precone * (Real.pi / 180))
  + (-D.Rtip * Real.sin (D.precone * (Real.pi / 180)) + D.precurveTip * Real.cos (D.precone * (Real.pi / 180)))
    * (V.precone * (Real.pi / 180))

theorem RotorDesign.radius_deriv {n npts : ℕ} {D : ℝ → RotorDesign} {V : RotorDesign} {t : ℝ}
    (hV : RotorDesign.HasDeriv n npts D V t) (hn : 0 < npts) :
    HasDerivAt (fun s => (D s).radius) ((D t).radiusRate V) t := by
  have hc := hV.cond 0 hn 0
  have h1 : HasDerivAt (fun s => (D s).Rtip) V.Rtip t := hc.Rtip
  have h2 : HasDerivAt (fun s => (D s).precone * (Real.pi / 180)) (V.precone * (Real.pi / 180)) t := hc.precone.mul_const _
  exact ((h1.mul h2.cos).add (hV.precurveTip.mul h2.sin)).congr_deriv (by simp only [RotorDesign.radiusRate]; ring)

theorem sum_dRds (R : Rotor ℝ) (D V : RotorDesign) (m : ℕ) :
    ∑ k ∈ range 12, dRds (D.rotor R) k * V.s m k = D.radiusRate V := by
  simp only [sum_range_succ, range_zero, sum_empty, dRds, RotorDesign.s, RotorDesign.rotor, RotorDesign.radiusRate, num_real]
  norm_num
  ring

/-- Values and dictionaries of an output in a call. -/
theorem RotorDesign.output {bq : RootFinder ℝ} {R : Rotor ℝ} {npts : ℕ} {co : Bool} {D : RotorDesign} {o : EvalOut ℝ}
    (h : D.call bq R npts co = .ok o) {m : ℕ} (hm : m < npts) :
    ∃ x, x.P = power x.acc.Q (D.Omega m) ∧
      x.C = (if co then some (coefs (D.rotor R) ⟨D.Uinf m, D.Omega m, D.pitch m⟩ x.acc) else none) ∧
      (∀ f, outputAt o f m = (f x).val) ∧
      ∀ f V, rotorApply R.n npts (outputDict R.n o f) V m = (f x).app R.n V m := by
  obtain ⟨x, hx, -, h1, h2, -⟩ := RotorDesign.entry h hm
  refine ⟨x, h1, h2, fun f => ?_, fun f V => ?_⟩
  · simp only [outputAt, hx, Option.map_some, Option.getD_some]
  · rw [outputDict, rotorApply_eq R.n npts _ m hm (f x) (by rw [List.getElem?_map, hx]; rfl)]

/-- **C50** The dictionary `dP` is exact when `dQ` is. -/
theorem power_dictionary (bq : RootFinder ℝ) (R : Rotor ℝ) (npts : ℕ) (co : Bool)
    (D : ℝ → RotorDesign) (V : RotorDesign) (t : ℝ) (hV : RotorDesign.HasDeriv R.n npts D V t) (o : ℝ → EvalOut ℝ)
    (hcall : ∀ᶠ s in 𝓝 t, (D s).call bq R npts co = .ok (o s)) (m : ℕ) (hm : m < npts)
    (hQ : HasDerivAt (fun s => outputAt (o s) (fun x => x.acc.Q) m)
      (rotorApply R.n npts (outputDict R.n (o t) fun x => x.acc.Q) V m) t) :
    HasDerivAt (fun s => outputAt (o s) (fun x => x.P) m) (rotorApply R.n npts (outputDict R.n (o t) fun x => x.P) V m) t := by
  have hOm : HasDerivAt (fun s => (D s).Omega m) (V.Omega m) t := (hV.cond m hm 0).Omega
  have hprod := ((hQ.mul hOm).mul_const Real.pi).div_const 30
  refine (hprod.congr_of_eventuallyEq ?_).congr_deriv ?_
  · filter_upwards [hcall] with s hs
    obtain ⟨x, h1, -, h2, -⟩ := RotorDesign.output hs hm
    rw [h2, h1]
    simp only [Pi.mul_apply, h2, power, num_real]
    norm_num
  · obtain ⟨x, h1, -, h2, h3⟩ := RotorDesign.output hcall.self_of_nhds hm
    rw [h3, h3, h2]
    simp only [h1, Quant.app, power, num_real, sum_range_succ, range_zero, sum_empty, RotorDesign.s]
    norm_num
    have : ∀ k, ∑ i ∈ range R.n, x.acc.Q.dv k i * (D t).Omega m * Real.pi / 30 * V.v k i
        = (∑ i ∈ range R.n, x.acc.Q.dv k i * V.v k i) * ((D t).Omega m * Real.pi / 30) := by
      intro k
      rw [sum_mul]
      exact sum_congr rfl fun i _ => by ring
    simp only [this]
    ring

/-- **C50** The dictionaries `dCT`, `dCY`, `dCZ` are exact when `dT`, `dY`, `dZ` are, at values other than zero. -/
theorem force_coefficient_dictionary (bq : RootFinder ℝ) (R : Rotor ℝ) (npts : ℕ)
    (D : ℝ → RotorDesign) (V : RotorDesign) (t : ℝ) (hV : RotorDesign.HasDeriv R.n npts D V t) (o : ℝ → EvalOut ℝ)
    (hcall : ∀ᶠ s in 𝓝 t, (D s).call bq R npts true = .ok (o s)) (m : ℕ) (hm : m < npts)
    (hrho : R.rho ≠ 0) (hU : (D t).Uinf m ≠ 0) (hrad : (D t).radius ≠ 0)
    (f : CondOut ℝ → Quant ℝ) (g : Coefs ℝ → Quant ℝ)
    (hfg : (f, g) ∈ [((fun x => x.acc.T : CondOut ℝ → Quant ℝ), Coefs.CT), (fun x => x.acc.Y, Coefs.CY), (fun x => x.acc.Z, Coefs.CZ)])
    (hf : HasDerivAt (fun s => outputAt (o s) f m) (rotorApply R.n npts (outputDict R.n (o t) f) V m) t)
    (hne : outputAt (o t) f m ≠ 0) :
    HasDerivAt (fun s => outputAt (o s) (coefOf g) m) (rotorApply R.n npts (outputDict R.n (o t) (coefOf g)) V m) t := by
  have hUd : HasDerivAt (fun s => (D s).Uinf m) (V.Uinf m) t := (hV.cond m hm 0).Uinf
  have hR := RotorDesign.radius_deriv hV (by omega)
  have hpi := Real.pi_ne_zero
  have hden := ((((hUd.pow 2).const_mul (1 / 2 * R.rho))).mul ((hR.pow 2).const_mul Real.pi))
  have hden0 : 1 / 2 * R.rho * (D t).Uinf m ^ 2 * (Real.pi * (D t).radius ^ 2) ≠ 0 := by positivity
  have hq := hf.div hden hden0
  have hform : ∀ (D : RotorDesign) (x : CondOut ℝ),
      x.C = some (coefs (D.rotor R) ⟨D.Uinf m, D.Omega m, D.pitch m⟩ x.acc) →
      coefOf g x = ⟨(f x).val / (1 / 2 * R.rho * D.Uinf m ^ 2 * (Real.pi * D.radius ^ 2)),
        fun k => (f x).val / (1 / 2 * R.rho * D.Uinf m ^ 2 * (Real.pi * D.radius ^ 2))
          * ((f x).ds k / (f x).val - 2 * Real.pi * D.radius * dRds (D.rotor R) k / (Real.pi * D.radius ^ 2)
            - R.rho * D.Uinf m * (if k = 9 then 1 else 0) / (1 / 2 * R.rho * D.Uinf m ^ 2)),
        fun k i => (f x).dv k i / (1 / 2 * R.rho * D.Uinf m ^ 2 * (Real.pi * D.radius ^ 2))⟩ := by
    intro D x hx
    simp only [List.mem_cons, Prod.mk.injEq, List.not_mem_nil, or_false] at hfg
    rcases hfg with ⟨rfl, rfl⟩ | ⟨rfl, rfl⟩ | ⟨rfl, rfl⟩ <;>
    · simp only [coefOf, hx, Option.map_some, Option.getD_some, coefs, num_real]
      norm_num
      exact ⟨rfl, rfl, rfl⟩
  refine (hq.congr_of_eventuallyEq ?_).congr_deriv ?_
  · filter_upwards [hcall] with s hs
    obtain ⟨x, -, h1, h2, -⟩ := RotorDesign.output hs hm
    rw [if_pos rfl] at h1
    rw [h2, hform _ x h1]
    simp only [Pi.div_apply, Pi.mul_apply, Pi.pow_apply, h2]
  · obtain ⟨x, -, h1, h2, h3⟩ := RotorDesign.output hcall.self_of_nhds hm
    rw [if_pos rfl] at h1
    rw [h2] at hne
    rw [h3, h3, hform _ x h1]
    simp only [Pi.mul_apply, Pi.pow_apply, h2, Quant.app]
    rw [show (∑ k ∈ range 5, ∑ i ∈ range R.n, (f x).dv k i / (1 / 2 * R.rho * (D t).Uinf m ^ 2 * (Real.pi * (D t).radius ^ 2)) * V.v k i)
      = (∑ k ∈ range 5, ∑ i ∈ range R.n, (f x).dv k i * V.v k i) / (1 / 2 * R.rho * (D t).Uinf m ^ 2 * (Real.pi * (D t).radius ^ 2)) by
        rw [sum_div]; refine sum_congr rfl fun k _ => ?_; rw [sum_div]; exact sum_congr rfl fun i _ => by ring]
    have hsplit : ∀ c a b d : ℝ, ∑ k ∈ range 12, c * ((f x).ds k / a - b * dRds ((D t).rotor R) k / d
        - R.rho * (D t).Uinf m * (if k = 9 then 1 else 0) / (1 / 2 * R.rho * (D t).Uinf m ^ 2)) * V.s m k
        = c * ((∑ k ∈ range 12, (f x).ds k * V.s m k) / a - b / d * (D t).radiusRate V
          - R.rho * (D t).Uinf m / (1 / 2 * R.rho * (D t).Uinf m ^ 2) * V.Uinf m) := by
      intro c a b d
      rw [← sum_dRds R (D t) V m]
      simp only [sum_range_succ, range_zero, sum_empty, RotorDesign.s]
      norm_num
      ring
    rw [hsplit]
    generalize (∑ k ∈ range 12, (f x).ds k * V.s m k) = A1
    generalize (∑ k ∈ range 5, ∑ i ∈ range R.n, (f x).dv k i * V.v k i) = A2
    generalize (f x).val = v at *
    generalize (D t).Uinf m = u at *
    generalize (D t).radius = r at *
    generalize (D t).radiusRate V = r' at *
    field_simp
    push_cast
    ring

/-- **C50** The dictionaries `dCQ`, `dCMy`, `dCMz`, `dCMb` are exact when `dQ`, `dMy`, `dMz`, `dMb` are, at values other than
zero. -/
theorem moment_coefficient_dictionary (bq : RootFinder ℝ) (R : Rotor ℝ) (npts : ℕ)
    (D : ℝ → RotorDesign) (V : RotorDesign) (t : ℝ) (hV : RotorDesign.HasDeriv R.n npts D V t) (o : ℝ → EvalOut ℝ)
    (hcall : ∀ᶠ s in 𝓝 t, (D s).call bq R npts true = .ok (o s)) (m : ℕ) (hm : m < npts)
    (hrho : R.rho ≠ 0) (hU : (D t).Uinf m ≠ 0) (hrad : (D t).radius ≠ 0)
    (f : CondOut ℝ → Quant ℝ) (g : Coefs ℝ → Quant ℝ)
    (hfg : (f, g) ∈ [((fun x => x.acc.Q : CondOut ℝ → Quant ℝ), Coefs.CQ), (fun x => x.acc.My, Coefs.CMy),
      (fun x => x.acc.Mz, Coefs.CMz), (fun x => x.acc.Mb, Coefs.CMb)])
    (hf : HasDerivAt (fun s => outputAt (o s) f m) (rotorApply R.n npts (outputDict R.n (o t) f) V m) t)
    (hne : outputAt (o t) f m ≠ 0) :
    HasDerivAt (fun s => outputAt (o s) (coefOf g) m) (rotorApply R.n npts (outputDict R.n (o t) (coefOf g)) V m) t := by
  have hUd : HasDerivAt (fun s => (D s).Uinf m) (V.Uinf m) t := (hV.cond m hm 0).Uinf
  have hR := RotorDesign.radius_deriv hV (by omega)
  have hpi := Real.pi_ne_zero
  have hden := (((((hUd.pow 2).const_mul (1 / 2 * R.rho))).mul hR).mul ((hR.pow 2).const_mul Real.pi))
  have hden0 : 1 / 2 * R.rho * (D t).Uinf m ^ 2 * (D t).radius * (Real.pi * (D t).radius ^ 2) ≠ 0 := by positivity
  have hq := hf.div hden hden0
  have hform : ∀ (D : RotorDesign) (x : CondOut ℝ),
      x.C = some (coefs (D.rotor R) ⟨D.Uinf m, D.Omega m, D.pitch m⟩ x.acc) →
      coefOf g x = ⟨(f x).val / (1 / 2 * R.rho * D.Uinf m ^ 2 * D.radius * (Real.pi * D.radius ^ 2)),
        fun k => (f x).val / (1 / 2 * R.rho * D.Uinf m ^ 2 * D.radius * (Real.pi * D.radius ^ 2))
          * ((f x).ds k / (f x).val - 2 * Real.pi * D.radius * dRds (D.rotor R) k / (Real.pi * D.radius ^ 2)
            - R.rho * D.Uinf m * (if k = 9 then 1 else 0) / (1 / 2 * R.rho * D.Uinf m ^ 2)
            - dRds (D.rotor R) k / D.radius),
        fun k i => (f x).dv k i / (1 / 2 * R.rho * D.Uinf m ^ 2 * D.radius * (Real.pi * D.radius ^ 2))⟩ := by
    intro D x hx
    simp only [List.mem_cons, Prod.mk.injEq, List.not_mem_nil, or_false] at hfg
    rcases hfg with ⟨rfl, rfl⟩ | ⟨rfl, rfl⟩ | ⟨rfl, rfl⟩ | ⟨rfl, rfl⟩ <;>
    · simp only [coefOf, hx, Option.map_some, Option.getD_some, coefs, num_real]
      norm_num
      exact ⟨rfl, rfl, rfl⟩
  refine (hq.congr_of_eventuallyEq ?_).congr_deriv ?_
  · filter_upwards [hcall] with s hs
    obtain ⟨x, -, h1, h2, -⟩ := RotorDesign.output hs hm
    rw [if_pos rfl] at h1
    rw [h2, hform _ x h1]
    simp only [Pi.div_apply, Pi.mul_apply, Pi.pow_apply, h2]
  · obtain ⟨x, -, h1, h2, h3⟩ := RotorDesign.output hcall.self_of_nhds hm
    rw [if_pos rfl] at h1
    rw [h2] at hne
    rw [h3, h3, hform _ x h1]
    simp only [Pi.mul_apply, Pi.pow_apply, h2, Quant.app]
    rw [show (∑ k ∈ range 5, ∑ i ∈ range R.n, (f x).dv k i
        / (1 / 2 * R.rho * (D t).Uinf m ^ 2 * (D t).radius * (Real.pi * (D t).radius ^ 2)) * V.v k i)
      = (∑ k ∈ range 5, ∑ i ∈ range R.n, (f x).dv k i * V.v k i)
        / (1 / 2 * R.rho * (D t).Uinf m ^ 2 * (D t).radius * (Real.pi * (D t).radius ^ 2)) by
        rw [sum_div]; refine sum_congr rfl fun k _ => ?_; rw [sum_div]; exact sum_congr rfl fun i _ => by ring]
    have hsplit : ∀ c a b d e : ℝ, ∑ k ∈ range 12, c * ((f x).ds k / a - b * dRds ((D t).rotor R) k / d
        - R.rho * (D t).Uinf m * (if k = 9 then 1 else 0) / (1 / 2 * R.rho * (D t).Uinf m ^ 2)
        - dRds ((D t).rotor R) k / e) * V.s m k
        = c * ((∑ k ∈ range 12, (f x).ds k * V.s m k) / a - b / d * (D t).radiusRate V
          - R.rho * (D t).Uinf m / (1 / 2 * R.rho * (D t).Uinf m ^ 2) * V.Uinf m - (D t).radiusRate V / e) := by
      intro c a b d e
      rw [← sum_dRds R (D t) V m]
      simp only [sum_range_succ, range_zero, sum_empty, RotorDesign.s]
      norm_num
      ring
    rw [hsplit]
    generalize (∑ k ∈ range 12, (f x).ds k * V.s m k) = A1
    generalize (∑ k ∈ range 5, ∑ i ∈ range R.n, (f x).dv k i * V.v k i) = A2
    generalize (f x).val = v at *
    generalize (D t).Uinf m = u at *
    generalize (D t).radius = r at *
    generalize (D t).radiusRate V = r' at *
    field_simp
    push_cast
    ring

/-- **C50** The dictionary `dCP` is exact when `dQ` is, where torque and rotational speed are not zero. -/
theorem power_coefficient_dictionary (bq : RootFinder ℝ) (R : Rotor ℝ) (npts : ℕ)
    (D : ℝ → RotorDesign) (V : RotorDesign) (t : ℝ) (hV : RotorDesign.HasDeriv R.n npts D V t) (o : ℝ → EvalOut ℝ)
    (hcall : ∀ᶠ s in 𝓝 t, (D s).call bq R npts true = .ok (o s)) (m : ℕ) (hm : m < npts)
    (hrho : R.rho ≠ 0) (hU : (D t).Uinf m ≠ 0) (hrad : (D t).radius ≠ 0)
    (hf : HasDerivAt (fun s => outputAt (o s) (fun x => x.acc.Q) m)
      (rotorApply R.n npts (outputDict R.n (o t) fun x => x.acc.Q) V m) t)
    (hne : outputAt (o t) (fun x => x.acc.Q) m ≠ 0) (hOm : (D t).Omega m ≠ 0) :
    HasDerivAt (fun s => outputAt (o s) (coefOf Coefs.CP) m)
      (rotorApply R.n npts (outputDict R.n (o t) (coefOf Coefs.CP)) V m) t := by
  have hUd : HasDerivAt (fun s => (D s).Uinf m) (V.Uinf m) t := (hV.cond m hm 0).Uinf
  have hOd : HasDerivAt (fun s => (D s).Omega m) (V.Omega m) t := (hV.cond m hm 0).Omega
  have hR := RotorDesign.radius_deriv hV (by omega)
  have hpi := Real.pi_ne_zero
  have hnum := ((hf.mul hOd).mul_const Real.pi).div_const 30
  have hden := ((((hUd.pow 2).const_mul (1 / 2 * R.rho))).mul ((hR.pow 2).const_mul Real.pi)).mul hUd
  have hden0 : 1 / 2 * R.rho * (D t).Uinf m ^ 2 * (Real.pi * (D t).radius ^ 2) * (D t).Uinf m ≠ 0 := by positivity
  have hq := hnum.div hden hden0
  have hform : ∀ (D : RotorDesign) (x : CondOut ℝ),
      x.C = some (coefs (D.rotor R) ⟨D.Uinf m, D.Omega m, D.pitch m⟩ x.acc) →
      let CP := x.acc.Q.val * D.Omega m * Real.pi / 30 / (1 / 2 * R.rho * D.Uinf m ^ 2 * (Real.pi * D.radius ^ 2) * D.Uinf m)
      coefOf Coefs.CP x = ⟨CP,
        fun k => CP
          * (x.acc.Q.ds k / x.acc.Q.val + (if k = 10 then 1 else 0) / D.Omega m
            - 2 * Real.pi * D.radius * dRds (D.rotor R) k / (Real.pi * D.radius ^ 2)
            - R.rho * D.Uinf m * (if k = 9 then 1 else 0) / (1 / 2 * R.rho * D.Uinf m ^ 2)
            - (if k = 9 then 1 else 0) / D.Uinf m),
        fun k i => x.acc.Q.dv k i * CP / x.acc.Q.val⟩ := by
    intro D x hx
    simp only [coefOf, hx, Option.map_some, Option.getD_some, coefs, power, num_real]
    norm_num
    exact ⟨rfl, rfl, rfl⟩
  refine (hq.congr_of_eventuallyEq ?_).congr_deriv ?_
  · filter_upwards [hcall] with s hs
    obtain ⟨x, -, h1, h2, -⟩ := RotorDesign.output hs hm
    rw [if_pos rfl] at h1
    rw [h2, hform _ x h1]
    simp only [Pi.div_apply, Pi.mul_apply, Pi.pow_apply, h2]
  · obtain ⟨x, -, h1, h2, h3⟩ := RotorDesign.output hcall.self_of_nhds hm
    rw [if_pos rfl] at h1
    rw [h2] at hne
    rw [h3, h3, hform _ x h1]
    simp only [Pi.mul_apply, Pi.pow_apply, h2, Quant.app]
    generalize hc : x.acc.Q.val * (D t).Omega m * Real.pi / 30
      / (1 / 2 * R.rho * (D t).Uinf m ^ 2 * (Real.pi * (D t).radius ^ 2) * (D t).Uinf m) = c
    rw [show (∑ k ∈ range 5, ∑ i ∈ range R.n, x.acc.Q.dv k i * c / x.acc.Q.val * V.v k i)
      = (∑ k ∈ range 5, ∑ i ∈ range R.n, x.acc.Q.dv k i * V.v k i) * (c / x.acc.Q.val) by
        rw [sum_mul]; refine sum_congr rfl fun k _ => ?_; rw [sum_mul]; exact sum_congr rfl fun i _ => by ring]
    have hsplit : ∀ c a b d : ℝ, ∑ k ∈ range 12, c * (x.acc.Q.ds k / a + (if k = 10 then 1 else 0) / (D t).Omega m
        - b * dRds ((D t).rotor R) k / d
        - R.rho * (D t).Uinf m * (if k = 9 then 1 else 0) / (1 / 2 * R.rho * (D t).Uinf m ^ 2)
        - (if k = 9 then 1 else 0) / (D t).Uinf m) * V.s m k
        = c * ((∑ k ∈ range 12, x.acc.Q.ds k * V.s m k) / a + V.Omega m / (D t).Omega m - b / d * (D t).radiusRate V
          - R.rho * (D t).Uinf m / (1 / 2 * R.rho * (D t).Uinf m ^ 2) * V.Uinf m - V.Uinf m / (D t).Uinf m) := by
      intro c a b d
      rw [← sum_dRds R (D t) V m]
      simp only [sum_range_succ, range_zero, sum_empty, RotorDesign.s]
      norm_num
      ring
    rw [hsplit, ← hc]
    generalize (∑ k ∈ range 12, x.acc.Q.ds k * V.s m k) = A1
    generalize (∑ k ∈ range 5, ∑ i ∈ range R.n, x.acc.Q.dv k i * V.v k i) = A2
    generalize x.acc.Q.val = v at *
    generalize (D t).Uinf m = u at *
    generalize (D t).Omega m = w at *
    generalize (D t).radius = r at *
    generalize (D t).radiusRate V = r' at *
    field_simp
    push_cast
    ring

/-! A rotor and a curve of designs meeting the hypotheses of C49 and C50: the precurve and presweep of the tip change, which
changes the lengths and directions of the last segment of the blade but not the loads of the stations. -/

noncomputable def tipRotor : Rotor ℝ := { plainRotor with derivatives := true, theta := fun _ => 0 }

noncomputable def tipCurve (s : ℝ) : RotorDesign where
  r j := 10 + 20 * j
  chord j := 4 - j
  theta _ := 0
  precurve _ := 0
  presweep _ := 0
  Rhub := 2
  Rtip := 60
  precone := 0
  tilt := 0
  hubHt := 90
  yaw := 0
  shear := 0
  precurveTip := s
  presweepTip := 2 * s
  Uinf _ := 10
  Omega _ := 12
  pitch _ := 0

def tipVel : RotorDesign where
  r _ := 0
  chord _ := 0
  theta _ := 0
  precurve _ := 0
  presweep _ := 0
  Rhub := 0
  Rtip := 0
  precone := 0
  tilt := 0
  hubHt := 0
  yaw := 0
  shear := 0
  precurveTip := 1
  presweepTip := 2
  Uinf _ := 0
  Omega _ := 0
  pitch _ := 0

theorem tipCurve_deriv (npts : ℕ) (t : ℝ) : RotorDesign.HasDeriv 3 npts tipCurve tipVel t := by
  refine ⟨fun m _ az => ?_, hasDerivAt_id t, by simpa [tipCurve, tipVel] using (hasDerivAt_id t).const_mul 2⟩
  constructor <;> first | exact hasDerivAt_const _ _ | exact fun j _ => hasDerivAt_const _ _

theorem tipCurve_rotor (s : ℝ) (m : ℕ) (az : ℝ) : ((tipCurve s).cond m az).rotor tipRotor = tipRotor := by
  simp [Design.rotor, RotorDesign.cond, tipCurve, tipRotor, plainRotor, demoRotor]

theorem tipRotor_station (az : ℝ) (i : ℕ) (hi : i < 3) : ∃ st, solveStation plainBq tipRotor (deg2rad 0) 12
    (rotorWind tipRotor 10 12 (deg2rad az)) i = .ok st ∧ 0 < st.loads.Np := by
  have hw : rotorWind tipRotor 10 12 (deg2rad az) i = (10, 12 * Real.pi / 30 * (10 + 20 * i)) := demoRotor_wind 10 12 _ i
  have hVy : (0 : ℝ) < 12 * Real.pi / 30 * (10 + 20 * i) := by have := Real.pi_pos; positivity
  have hch : (0 : ℝ) < 4 - i := by
    have : (i : ℝ) ≤ 2 := by exact_mod_cast (by omega : i ≤ 2)
    linarith
  have hcos : 0 < Real.cos (Real.pi / 4) := Real.cos_pos_of_mem_Ioo ⟨by linarith [Real.pi_pos], by linarith [Real.pi_pos]⟩
  have h12 : ((12 : ℝ) == 0) = false := by simp [num_real]
  have hphi : stationPhi plainBq tipRotor (deg2rad 0) 12 (rotorWind tipRotor 10 12 (deg2rad az)) i = .ok (Real.pi / 4, false) := by
    simp only [stationPhi, h12, Bool.false_eq_true, if_false]
    rw [if_neg (by simp [tipRotor, plainRotor, demoRotor])]
    rfl
  have hth : stationTheta tipRotor (deg2rad 0) (Real.pi / 4) i = 0 := rfl
  set x := stationSec tipRotor (rotorWind tipRotor 10 12 (deg2rad az)) i 0 with hx
  have x1 : x.Vx = 10 := by simp only [hx, stationSec, hw]
  have x2 : x.Vy = 12 * Real.pi / 30 * (10 + 20 * i) := by simp only [hx, stationSec, hw]
  have x3 : x.chord = 4 - i := rfl
  set v := secValues tipRotor (deg2rad 0) (Real.pi / 4) true x with hv
  have vW : 0 < v.W ^ 2 := by
    have hap : (runBEM tipRotor (deg2rad 0) (Real.pi / 4) x).ap = 0 := rfl
    simp only [hv, secValues, relativeWind, if_true, hap]
    exact relSpeed_pos _ _ _ _ hcos.ne' (by rw [x2]; exact hVy.ne')
  have vcn : v.cn = Real.cos (Real.pi / 4) := by
    simp [hv, secValues, runBEM, bemPasses, bemPass, hx, stationSec, tipRotor, plainRotor, plainAirfoil, demoRotor, num_real]
  have vNp : v.Np = v.cn * (1 / 2 * tipRotor.rho * v.W ^ 2) * x.chord := by
    simp only [hv, secValues, num_real]
    norm_num
  have hsec : secLoads tipRotor (deg2rad 0) (Real.pi / 4) true x = .ok (v, secDerivs tipRotor (deg2rad 0) (Real.pi / 4) true x v) := by
    unfold secLoads
    rw [if_pos (by
      have : x.Vy ≠ 0 := by rw [x2]; exact hVy.ne'
      simp [num_real, x1, this])]
    rw [if_neg]
    intro h
    simp only [num_real, Bool.and_eq_true, Bool.or_eq_true, decide_eq_true_eq] at h
    rcases h.2 with (h | h) | h
    · exact (vcn ▸ hcos.ne') h
    · rw [show v.W = 0 from h] at vW; norm_num at vW
    · exact (x3 ▸ hch.ne') h
  have hst : ∃ st, solveStation plainBq tipRotor (deg2rad 0) 12 (rotorWind tipRotor 10 12 (deg2rad az)) i = .ok st ∧
      st.loads = v := by
    unfold solveStation
    simp only [hphi, hth, ← hx, h12, Bool.not_false, hsec, real_isNaN, Bool.false_and, Bool.false_eq_true, if_false]
    exact ⟨_, rfl, rfl⟩
  obtain ⟨st, e1, e2⟩ := hst
  refine ⟨st, e1, ?_⟩
  rw [e2]
  · have hrho : 0 < tipRotor.rho := by norm_num [tipRotor, plainRotor, demoRotor]
    show 0 < v.Np
    rw [vNp, vcn, x3]
    positivity

/-- The call of `evaluate` succeeds on the whole curve, with the same loads. -/
theorem tipCurve_calls (npts : ℕ) (hn : 0 < npts) : ∃ (o : ℝ → EvalOut ℝ) (L : LoadsOut ℝ),
    (∀ s, (tipCurve s).call plainBq tipRotor npts true = .ok (o s)) ∧
    ∀ s m, ((tipCurve s).cond m 0).call plainBq tipRotor = .ok L := by
  obtain ⟨l, hl⟩ := solveStations_of_all (k := 3) fun i hi => (tipRotor_station 0 i hi).imp fun _ h => h.1
  obtain ⟨L, hL, -⟩ := distributedAeroLoads_of_stations (R := tipRotor) (pitch := 0) (az := 0) hl
  have hLs : ∀ s m, ((tipCurve s).cond m 0).call plainBq tipRotor = .ok L := by
    intro s m
    rw [Design.call, tipCurve_rotor]
    exact hL
  have : ∀ s, ∃ o, (tipCurve s).call plainBq tipRotor npts true = .ok o := by
    intro s
    refine evaluate_conditions_ok _ _ _ _ (by simp [RotorDesign.conds]; omega) fun c hc => ?_
    obtain ⟨m, -, rfl⟩ := List.mem_map.mp hc
    obtain ⟨acc, h⟩ := (condAcc_ok_iff plainBq ((tipCurve s).rotor tipRotor) ⟨(tipCurve s).Uinf m, (tipCurve s).Omega m, (tipCurve s).pitch m⟩).mpr
      fun k hk => by
        have hns : ((tipCurve s).rotor tipRotor).nSector = 1 := rfl
        obtain rfl : k = 0 := by omega
        refine ⟨L, ?_⟩
        rw [RotorDesign.loads_eq]
        simpa using hLs s m
    obtain ⟨W, hW⟩ := Option.isSome_iff_exists.mp ((condAcc_W h).mpr (by simp [RotorDesign.rotor, tipRotor, plainRotor, demoRotor]))
    exact ⟨⟨_, W⟩, (evaluate_single _ _ _ _ _).mpr ⟨acc, h, hW, rfl⟩⟩
  choose o ho using this
  exact ⟨o, L, ho, hLs⟩

theorem tipCurve_regular (s : ℝ) : ((tipCurve s).blade (fun _ => 0) (fun _ => 0)).Regular 3 := by
  constructor
  · intro j hj
    have hj : j < 4 := by omega
    left
    interval_cases j <;> simp [padded, RotorDesign.blade, tipCurve] <;> norm_num
  · intro j hj
    have hj : j < 4 := by omega
    interval_cases j <;> simp [padded, RotorDesign.blade, tipCurve] <;> norm_num
    positivity

theorem tipCurve_T {o : ℝ → EvalOut ℝ} (ho : ∀ s, (tipCurve s).call plainBq tipRotor 2 true = .ok (o s)) :
    HasDerivAt (fun s => outputAt (o s) (fun x => x.acc.T) 1)
      (rotorApply 3 2 (outputDict 3 (o 0) fun x => x.acc.T) tipVel 1) 0 := by
  obtain ⟨-, L, -, hL⟩ := tipCurve_calls 2 (by norm_num)
  refine rotor_dictionary plainBq tipRotor rfl 2 true tipCurve tipVel 0 (tipCurve_deriv 2 0) o
    (Eventually.of_forall ho) 1 (by norm_num) (fun _ _ => L) (Eventually.of_forall fun s k hk => ?_) (fun k _ i _ => ?_)
    (tipCurve_regular 0) _ (by simp)
  · obtain rfl : k = 0 := by
      have : tipRotor.nSector = 1 := rfl
      omega
    simpa using hL s 1
  · have h0 : ∀ d, dictApply tipRotor.n d (tipVel.cond 1 0) i = 0 := by
      intro d
      simp [dictApply, RotorDesign.cond, tipVel]
    simp only [h0]
    exact ⟨hasDerivAt_const _ _, hasDerivAt_const _ _⟩

theorem tipCurve_T_pos {o : ℝ → EvalOut ℝ} (ho : ∀ s, (tipCurve s).call plainBq tipRotor 2 true = .ok (o s)) :
    0 < outputAt (o 0) (fun x => x.acc.T) 1 := by
  obtain ⟨-, L, -, hL⟩ := tipCurve_calls 2 (by norm_num)
  obtain ⟨x, hx, ha, -⟩ := RotorDesign.entry (ho 0) (m := 1) (by norm_num)
  have hT := (RotorDesign.acc_sum ha (fun _ => L) fun k hk => by
    obtain rfl : k = 0 := by
      have : tipRotor.nSector = 1 := rfl
      omega
    simpa using hL 0 1).1
  have hNp : ∀ i < 3, 0 < stationArr L.stations SecLoads.Np i := by
    intro i hi
    have h0 := hL 0 1
    rw [Design.call, tipCurve_rotor] at h0
    obtain ⟨-, l2⟩ := solveStations_ok (distributedAeroLoads_stations (Prod.ext rfl h0))
    obtain ⟨st, e1, e2⟩ := l2 i hi
    obtain ⟨st', e3, e4⟩ := tipRotor_station 0 i hi
    have : st = st' := Except.ok.inj (e2.symm.trans e3)
    simp only [stationArr, e1, Option.map_some, Option.getD_some, this, e4]
  have h0 := hNp 0 (by norm_num)
  have h1 := hNp 1 (by norm_num)
  have h2 := hNp 2 (by norm_num)
  have hval : ∀ (R' : Rotor ℝ) J L v w, (bladeQuant R' J L v w).val = v := by
    intro R' J L v w
    simp only [bladeQuant]
    generalize (if R'.derivatives = true then J else none) = j
    cases j <;> rfl
  simp only [outputAt, hx, Option.map_some, Option.getD_some, hT]
  have hcone : ∀ i < 5, (defineCurvature 5 (padded 3 (2 : ℝ) (fun j : ℕ => 10 + 20 * (j : ℝ)) 60) (padded 3 0 (fun _ => 0) 0)
      (padded 3 0 (fun _ => 0) 0) 0).cone i = 0 := fun i hi => by
    refine cone_of_straight_blade 5 (by norm_num) _ _ _ _ ⟨by linarith [Real.pi_pos], Real.pi_pos.le⟩ ?_ ?_ i hi
    · intro j hj
      have hj : j < 4 := by omega
      interval_cases j <;> simp [padded] <;> norm_num
    · intro j hj
      interval_cases j <;> simp [padded]
  simp only [Quant.sum, show tipRotor.nSector = 1 from rfl, sum_range_succ, sum_range_zero, Quant.map2, hval]
  have hblade : (bladeInt ((tipCurve 0).rotor tipRotor) L).T = trapz 4 (fun i => padded 3 0 (stationArr L.stations SecLoads.Np) 0 i
      * Real.cos ((defineCurvature 5 (padded 3 (2 : ℝ) (fun j : ℕ => 10 + 20 * (j : ℝ)) 60) (padded 3 0 (fun _ => 0) 0)
      (padded 3 0 (fun _ => 0) 0) 0).cone i)) (defineCurvature 5 (padded 3 (2 : ℝ) (fun j : ℕ => 10 + 20 * (j : ℝ)) 60)
      (padded 3 0 (fun _ => 0) 0) (padded 3 0 (fun _ => 0) 0) 0).s := by
    simp only [bladeInt, thrustTorque, RotorDesign.rotor, tipCurve, mul_zero, zero_mul, num_real]
    rfl
  rw [hblade]
  simp only [trapz, num_real, sum_range_succ, sum_range_zero, hcone 0 (by norm_num), hcone 1 (by norm_num), hcone 2 (by norm_num),
    hcone 3 (by norm_num), hcone 4 (by norm_num), Real.cos_zero, mul_one]
  generalize stationArr L.stations SecLoads.Np = Np at h0 h1 h2 ⊢
  simp [padded, defineCurvature, pathLength, segLength, num_real, tipRotor, plainRotor, demoRotor]
  norm_num
  positivity

example : ∃ o : ℝ → EvalOut ℝ, (∀ s, (tipCurve s).call plainBq tipRotor 2 true = .ok (o s)) ∧
    HasDerivAt (fun s => outputAt (o s) (fun x => x.acc.T) 1)
      (rotorApply 3 2 (outputDict 3 (o 0) fun x => x.acc.T) tipVel 1) 0 ∧
    HasDerivAt (fun s => outputAt (o s) (coefOf Coefs.CT) 1)
      (rotorApply 3 2 (outputDict 3 (o 0) (coefOf Coefs.CT)) tipVel 1) 0 := by
  obtain ⟨o, -, ho, -⟩ := tipCurve_calls 2 (by norm_num)
  exact ⟨o, ho, tipCurve_T ho, force_coefficient_dictionary plainBq tipRotor 2 tipCurve tipVel 0 (tipCurve_deriv 2 0) o
    (Eventually.of_forall ho) 1 (by norm_num) (by norm_num [tipRotor, plainRotor, demoRotor]) (by norm_num [tipCurve])
    (by norm_num [tipCurve, RotorDesign.radius]) _ _ (by simp) (tipCurve_T ho) (tipCurve_T_pos ho).ne'⟩

end Verif
