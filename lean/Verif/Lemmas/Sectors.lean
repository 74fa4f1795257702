import Verif.Lemmas.History
import Mathlib.Tactic.FieldSimp
import Mathlib.Tactic.Ring

/-!
# The loop over the azimuth angles as a sum
-/

namespace Verif

open Finset

/-- Sum of values and of derivatives. -/
noncomputable def Quant.sum (n : ℕ) (f : ℕ → Quant ℝ) : Quant ℝ :=
  ⟨∑ k ∈ range n, (f k).val, fun j => ∑ k ∈ range n, (f k).ds j, fun j i => ∑ k ∈ range n, (f k).dv j i⟩

/-- The blade integrals of the loads `L`. -/
noncomputable def bladeInt (R : Rotor ℝ) (L : LoadsOut ℝ) : TTOut ℝ :=
  thrustTorque R.n (stationArr L.stations SecLoads.Np) (stationArr L.stations SecLoads.Tp) R.r R.precurve R.presweep R.precone
    R.Rhub R.Rtip R.precurveTip R.presweepTip

/-- A blade integral with its derivatives. -/
noncomputable def bladeQuant (R : Rotor ℝ) (J : Option (LoadJac ℝ)) (L : LoadsOut ℝ) (val : ℝ) (w : TTSeed ℝ) : Quant ℝ :=
  match (if R.derivatives then J else none) with
  | some J => ⟨val, (ttDeriv R (stationArr L.stations SecLoads.Np) (stationArr L.stations SecLoads.Tp) J w).ds,
      (ttDeriv R (stationArr L.stations SecLoads.Np) (stationArr L.stations SecLoads.Tp) J w).dv⟩
  | none => ⟨val, fun _ => 0, fun _ _ => 0⟩

/-- The azimuth angle of sector `k`, in radians. -/
noncomputable def sectorAz (ns k : ℕ) : ℝ := k * (2 * Real.pi / ns)

theorem azimuthAngles_real (ns : ℕ) : azimuthAngles (α := ℝ) ns = (List.range ns).map (sectorAz ns) := by
  simp [azimuthAngles, arr, sectorAz, num_real]

/-- The result of a call, when it has one. -/
noncomputable def loadsAt (bq : RootFinder ℝ) (R : Rotor ℝ) (Uinf Omega pitch az : ℝ) : LoadsOut ℝ :=
  match (distributedAeroLoads bq R Uinf Omega pitch az).2 with
  | .ok L => L
  | .error _ => ⟨[], [], []⟩

theorem loads_saved {bq : RootFinder ℝ} {R R' : Rotor ℝ} {Uinf Omega pitch az : ℝ} {L : LoadsOut ℝ}
    (h : distributedAeroLoads bq R Uinf Omega pitch az = (R', .ok L)) (hd : R.derivatives = true) :
    R'.saved = some (loadJac R Uinf Omega (deg2rad az) L.stations) := by
  unfold distributedAeroLoads at h
  simp only at h
  split at h
  · simp at h
  · rw [if_pos hd] at h
    simp only [Prod.mk.injEq, Except.ok.injEq] at h
    rw [← h.1, ← h.2]

/-- The step for an object in its original state. -/
noncomputable def cleanStep (bq : RootFinder ℝ) (R : Rotor ℝ) (Uinf Omega pitch : ℝ) (acc : RotorAcc ℝ) (az : ℝ) :
    RotorAcc ℝ :=
  sectorStep { R with saved := some (loadJac R Uinf Omega (deg2rad (rad2deg az))
    (loadsAt bq R Uinf Omega pitch (rad2deg az)).stations) } az (loadsAt bq R Uinf Omega pitch (rad2deg az)) acc

theorem sectorLoop_fold {bq : RootFinder ℝ} {R0 : Rotor ℝ} {Uinf Omega pitch : ℝ} :
    ∀ (azs : List ℝ) (R : Rotor ℝ) (acc a : RotorAcc ℝ), SameDesign R0 R →
      (sectorLoop bq Uinf Omega pitch azs R acc).2 = .ok a →
      (∀ az ∈ azs, (distributedAeroLoads bq R0 Uinf Omega pitch (rad2deg az)).2
        = .ok (loadsAt bq R0 Uinf Omega pitch (rad2deg az))) ∧
      a = azs.foldl (cleanStep bq R0 Uinf Omega pitch) acc
  | [], R, acc, a, _, h => by
    simp only [sectorLoop, Except.ok.injEq] at h
    exact ⟨by simp, h.symm⟩
  | az :: rest, R, acc, a, hd, h => by
    obtain ⟨h1, h2⟩ := hd.loads bq Uinf Omega pitch (rad2deg az)
    have hR := sameDesign_loads bq R Uinf Omega pitch (rad2deg az)
    unfold sectorLoop at h
    split at h
    · exact absurd h (by simp)
    · rename_i R' L hL
      rw [hL] at hR h1
      have e0 : loadsAt bq R0 Uinf Omega pitch (rad2deg az) = L := by simp only [loadsAt, ← h1]
      obtain ⟨i1, i2⟩ := sectorLoop_fold rest R' _ a (hd.trans hR) h
      refine ⟨?_, ?_⟩
      · intro x hx
        rcases List.mem_cons.mp hx with rfl | hx
        · rw [← h1, e0]
        · exact i1 x hx
      · rw [i2, List.foldl_cons]
        congr 1
        have hs : SameDesign { R0 with saved := some (loadJac R0 Uinf Omega (deg2rad (rad2deg az))
            (loadsAt bq R0 Uinf Omega pitch (rad2deg az)).stations) } R' := by
          obtain ⟨p, s, t, rfl, ht⟩ := hd.trans hR
          exact ⟨p, s, t, rfl, ht⟩
        rw [hs.sectorStep]
        · rw [cleanStep, e0]
        · intro hder
          obtain ⟨p, s, t, rfl, ht⟩ := hd
          rw [loads_saved hL hder, e0]
          rfl

theorem foldl_quant {β : Type} (f : β → ℝ → β) (get : β → Quant ℝ) (g : ℝ → Quant ℝ) (h : ∀ b x, get (f b x) = (get b).add (g x)) :
    ∀ (n : ℕ) (az : ℕ → ℝ) (b : β), get (((List.range n).map az).foldl f b) = (get b).add (Quant.sum n fun k => g (az k))
  | 0, az, b => by
    simp [Quant.sum, Quant.add]
  | n + 1, az, b => by
    rw [List.range_succ, List.map_append, List.foldl_append, List.map_singleton, List.foldl_cons, List.foldl_nil, h,
      foldl_quant f get g h n az b]
    simp only [Quant.add, Quant.sum, sum_range_succ, add_assoc]

theorem sectorStep_real (R : Rotor ℝ) (J : LoadJac ℝ) (az : ℝ) (L : LoadsOut ℝ) (acc : RotorAcc ℝ) :
    sectorStep { R with saved := some J } az L acc =
      (let q := bladeQuant R (some J) L
       let t := bladeInt R L
       let B : ℝ := R.B
       let ns : ℝ := R.nSector
       { T := acc.T.add ((q t.T seedT).map2 (fun x _ => B * x / ns) (q t.T seedT))
         Y := acc.Y.add ((q t.Y seedY).map2 (fun y z => B * (y * Real.cos az - z * Real.sin az) / ns) (q t.Z seedZ))
         Z := acc.Z.add ((q t.Z seedZ).map2 (fun z y => B * (z * Real.cos az + y * Real.sin az) / ns) (q t.Y seedY))
         Q := acc.Q.add ((q t.Q seedQ).map2 (fun x _ => B * x / ns) (q t.Q seedQ))
         My := acc.My.add ((q t.M seedM).map2 (fun x _ => B * x * Real.cos az / ns) (q t.M seedM))
         Mz := acc.Mz.add ((q t.M seedM).map2 (fun x _ => B * x * Real.sin az / ns) (q t.M seedM))
         Mb := acc.Mb.add ((q t.M seedM).map2 (fun x _ => x / ns) (q t.M seedM))
         W := some (stationArr L.stations SecLoads.W) } : RotorAcc ℝ) := by
  cases hd : R.derivatives
  · simp only [sectorStep, bladeQuant, hd, Bool.false_eq_true, if_false]
    rfl
  · simp only [sectorStep, bladeQuant, hd, if_true]
    rfl

/-- The accumulated rotor quantities of one condition. -/
theorem condAcc_sum {bq : RootFinder ℝ} {R : Rotor ℝ} {c : Cond ℝ} {a : RotorAcc ℝ} (h : condAcc bq R c = .ok a) :
    ∃ L : ℕ → LoadsOut ℝ,
      (∀ k < R.nSector, (distributedAeroLoads bq R c.Uinf c.Omega c.pitch (k * (360 / R.nSector))).2 = .ok (L k)) ∧
      let q := fun k => bladeQuant R (some (loadJac R c.Uinf c.Omega (sectorAz R.nSector k) (L k).stations)) (L k)
      let t := fun k => bladeInt R (L k)
      let ca := fun k => Real.cos (sectorAz R.nSector k)
      let sa := fun k => Real.sin (sectorAz R.nSector k)
      let B : ℝ := R.B
      let ns : ℝ := R.nSector
      let S := Quant.sum R.nSector
      a.T = (S fun k => (q k (t k).T seedT).map2 (fun x _ => B * x / ns) (q k (t k).T seedT)) ∧
      a.Y = (S fun k => (q k (t k).Y seedY).map2 (fun y z => B * (y * ca k - z * sa k) / ns) (q k (t k).Z seedZ)) ∧
      a.Z = (S fun k => (q k (t k).Z seedZ).map2 (fun z y => B * (z * ca k + y * sa k) / ns) (q k (t k).Y seedY)) ∧
      a.Q = (S fun k => (q k (t k).Q seedQ).map2 (fun x _ => B * x / ns) (q k (t k).Q seedQ)) ∧
      a.My = (S fun k => (q k (t k).M seedM).map2 (fun x _ => B * x * ca k / ns) (q k (t k).M seedM)) ∧
      a.Mz = (S fun k => (q k (t k).M seedM).map2 (fun x _ => B * x * sa k / ns) (q k (t k).M seedM)) ∧
      a.Mb = (S fun k => (q k (t k).M seedM).map2 (fun x _ => x / ns) (q k (t k).M seedM)) ∧
      (∀ m, R.nSector = m + 1 → a.W = some (stationArr (L m).stations SecLoads.W)) := by
  unfold condAcc at h
  rw [azimuthAngles_real] at h
  obtain ⟨h1, h2⟩ := sectorLoop_fold _ R _ a (SameDesign.refl R) h
  have haz : ∀ k < R.nSector, rad2deg (sectorAz R.nSector k) = k * (360 / R.nSector) := by
    intro k hk
    have : (R.nSector : ℝ) ≠ 0 := by exact_mod_cast (by omega : R.nSector ≠ 0)
    have := Real.pi_ne_zero
    simp only [sectorAz, num_real]
    field_simp
    ring
  have hdr : ∀ x : ℝ, deg2rad (rad2deg x) = x := by
    intro x
    have := Real.pi_ne_zero
    simp only [num_real]
    field_simp
  refine ⟨fun k => loadsAt bq R c.Uinf c.Omega c.pitch (rad2deg (sectorAz R.nSector k)), fun k hk => ?_, ?_⟩
  · rw [← haz k hk]
    exact h1 _ (List.mem_map.mpr ⟨k, List.mem_range.mpr hk, rfl⟩)
  · intro q t ca sa B ns S
    have hzero : ∀ x : Quant ℝ, Quant.zero.add x = x := by
      intro x; simp [Quant.zero, Quant.add]
    have key : ∀ (get : RotorAcc ℝ → Quant ℝ) (g : ℝ → Quant ℝ), get RotorAcc.zero = Quant.zero →
        (∀ b x, get (cleanStep bq R c.Uinf c.Omega c.pitch b x) = (get b).add (g x)) →
        get a = S fun k => g (sectorAz R.nSector k) := by
      intro get g h0 hg
      rw [h2, foldl_quant _ get g hg, h0, hzero]
    have hq : ∀ (x : ℝ) (v : ℝ) (w : TTSeed ℝ),
        bladeQuant R (some (loadJac R c.Uinf c.Omega x (loadsAt bq R c.Uinf c.Omega c.pitch (rad2deg x)).stations))
          (loadsAt bq R c.Uinf c.Omega c.pitch (rad2deg x)) v w
        = bladeQuant R (some (loadJac R c.Uinf c.Omega (deg2rad (rad2deg x))
            (loadsAt bq R c.Uinf c.Omega c.pitch (rad2deg x)).stations))
          (loadsAt bq R c.Uinf c.Omega c.pitch (rad2deg x)) v w := by
      intro x v w; rw [hdr]
    simp only [q, t, hq]
    refine ⟨?_, ?_, ?_, ?_, ?_, ?_, ?_, ?_⟩
    · exact key RotorAcc.T _ rfl fun b x => by rw [cleanStep, sectorStep_real]
    · exact key RotorAcc.Y _ rfl fun b x => by rw [cleanStep, sectorStep_real]
    · exact key RotorAcc.Z _ rfl fun b x => by rw [cleanStep, sectorStep_real]
    · exact key RotorAcc.Q _ rfl fun b x => by rw [cleanStep, sectorStep_real]
    · exact key RotorAcc.My _ rfl fun b x => by rw [cleanStep, sectorStep_real]
    · exact key RotorAcc.Mz _ rfl fun b x => by rw [cleanStep, sectorStep_real]
    · exact key RotorAcc.Mb _ rfl fun b x => by rw [cleanStep, sectorStep_real]
    · intro m hm
      rw [h2, hm, List.range_succ, List.map_append, List.foldl_append]
      rfl

/-- The loop over the azimuth angles succeeds when every call does. -/
theorem sectorLoop_succeeds {bq : RootFinder ℝ} {R0 : Rotor ℝ} {Uinf Omega pitch : ℝ} :
    ∀ (azs : List ℝ) (R : Rotor ℝ) (acc : RotorAcc ℝ), SameDesign R0 R →
      (∀ az ∈ azs, ∃ L, (distributedAeroLoads bq R0 Uinf Omega pitch (rad2deg az)).2 = .ok L) →
      ∃ a, (sectorLoop bq Uinf Omega pitch azs R acc).2 = .ok a
  | [], R, acc, _, _ => ⟨acc, rfl⟩
  | az :: rest, R, acc, hd, h => by
    obtain ⟨h1, -⟩ := hd.loads bq Uinf Omega pitch (rad2deg az)
    have hR := sameDesign_loads bq R Uinf Omega pitch (rad2deg az)
    obtain ⟨L, hL⟩ := h az List.mem_cons_self
    unfold sectorLoop
    generalize distributedAeroLoads bq R Uinf Omega pitch (rad2deg az) = d at h1 hR ⊢
    obtain ⟨R', r⟩ := d
    simp only at h1
    rw [hL] at h1
    subst h1
    exact sectorLoop_succeeds rest R' _ (hd.trans hR) fun x hx => h x (List.mem_cons_of_mem _ hx)

/-- A condition can be evaluated exactly when the loads can be computed at all azimuth angles. -/
theorem condAcc_ok_iff (bq : RootFinder ℝ) (R : Rotor ℝ) (c : Cond ℝ) :
    (∃ a, condAcc bq R c = .ok a) ↔
      ∀ k < R.nSector, ∃ L, (distributedAeroLoads bq R c.Uinf c.Omega c.pitch (k * (360 / R.nSector))).2 = .ok L := by
  constructor
  · rintro ⟨a, h⟩ k hk
    obtain ⟨L, hL, -⟩ := condAcc_sum h
    exact ⟨L k, hL k hk⟩
  · intro h
    unfold condAcc
    rw [azimuthAngles_real]
    apply sectorLoop_succeeds _ R _ (SameDesign.refl R)
    intro az haz
    obtain ⟨k, hk, rfl⟩ := List.mem_map.mp haz
    have hk := List.mem_range.mp hk
    have : rad2deg (sectorAz R.nSector k) = k * (360 / R.nSector) := by
      have : (R.nSector : ℝ) ≠ 0 := by exact_mod_cast (by omega : R.nSector ≠ 0)
      have := Real.pi_ne_zero
      simp only [sectorAz, num_real]
      field_simp
      ring
    rw [this]
    exact h k hk

end Verif
