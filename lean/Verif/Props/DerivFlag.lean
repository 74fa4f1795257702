import Verif.Lemmas.CCBlade
import Verif.Props.Solve
import Verif.Lemmas.History
import Verif.Props.RotorDict

/-!
# Requesting derivatives does not change the values (C83)
-/

namespace Verif

variable {α : Type} [Num α]

/-- The object constructed with `derivatives=False`. -/
def Rotor.plain (R : Rotor α) : Rotor α := { R with derivatives := false }

/-! ## Specification -/

/-- The numbers reported for one condition: the seven loads, the power and the coefficients. -/
structure SameNumbers (a b : CondOut α) : Prop where
  T : a.acc.T.val = b.acc.T.val
  Y : a.acc.Y.val = b.acc.Y.val
  Z : a.acc.Z.val = b.acc.Z.val
  Q : a.acc.Q.val = b.acc.Q.val
  My : a.acc.My.val = b.acc.My.val
  Mz : a.acc.Mz.val = b.acc.Mz.val
  Mb : a.acc.Mb.val = b.acc.Mb.val
  P : a.P.val = b.P.val
  CP : a.C.map (fun C => C.CP.val) = b.C.map fun C => C.CP.val
  CT : a.C.map (fun C => C.CT.val) = b.C.map fun C => C.CT.val
  CY : a.C.map (fun C => C.CY.val) = b.C.map fun C => C.CY.val
  CZ : a.C.map (fun C => C.CZ.val) = b.C.map fun C => C.CZ.val
  CQ : a.C.map (fun C => C.CQ.val) = b.C.map fun C => C.CQ.val
  CMy : a.C.map (fun C => C.CMy.val) = b.C.map fun C => C.CMy.val
  CMz : a.C.map (fun C => C.CMz.val) = b.C.map fun C => C.CMz.val
  CMb : a.C.map (fun C => C.CMb.val) = b.C.map fun C => C.CMb.val

/-! ## Helpers -/

theorem plain_bemPasses (R : Rotor α) (pitch phi : α) (x : Sec α) (k : ℕ) (o : BemOut α) :
    bemPasses R.plain pitch phi x k o = bemPasses R pitch phi x k o := by
  induction k generalizing o with
  | zero => rfl
  | succ k ih =>
    simp only [bemPasses]
    exact ih _

theorem plain_runBEM (R : Rotor α) (pitch phi : α) (x : Sec α) : runBEM R.plain pitch phi x = runBEM R pitch phi x := by
  unfold runBEM
  exact plain_bemPasses R _ _ _ _ _

theorem plain_secValues (R : Rotor α) (pitch phi : α) (rot : Bool) (x : Sec α) :
    secValues R.plain pitch phi rot x = secValues R pitch phi rot x := by
  simp only [secValues, plain_runBEM]
  rfl

theorem plain_secDerivs (R : Rotor α) (pitch phi : α) (rot : Bool) (x : Sec α) (v : SecLoads α) :
    secDerivs R.plain pitch phi rot x v = secDerivs R pitch phi rot x v := rfl

theorem plain_secLoads (R : Rotor α) (pitch phi : α) (rot : Bool) (x : Sec α) :
    (∀ p, secLoads R pitch phi rot x = .ok p → secLoads R.plain pitch phi rot x = .ok p) ∧
    (∀ p, secLoads R.plain pitch phi rot x = .ok p →
      secLoads R pitch phi rot x = .ok p ∨ (R.derivatives = true ∧ secLoads R pitch phi rot x = .error .valueError)) := by
  have hd : R.plain.derivatives = false := rfl
  constructor
  · intro p h
    simp only [secLoads] at h ⊢
    rw [hd]
    simp only [plain_secValues, plain_secDerivs, Bool.false_and, Bool.false_eq_true, if_false]
    split_ifs at h ⊢ <;> exact h
  · intro p h
    simp only [secLoads] at h ⊢
    rw [hd] at h
    simp only [plain_secValues, plain_secDerivs, Bool.false_and, Bool.false_eq_true, if_false] at h
    split_ifs at h ⊢ with h1 h2
    · exact .inr ⟨((Bool.and_eq_true _ _).mp h2).1, rfl⟩
    · exact .inl h
    · exact .inl h

theorem plain_stationPhi (bq : RootFinder α) (R : Rotor α) (pitch Omega : α) (V : ℕ → α × α) (i : ℕ) :
    stationPhi bq R.plain pitch Omega V i = stationPhi bq R pitch Omega V i := by
  have he : stationErrf R.plain pitch V i = stationErrf R pitch V i := by
    have h1 : ∀ x : Sec α, errFun R.plain pitch x = errFun R pitch x := by
      intro x
      funext phi
      simp only [errFun, plain_runBEM]
    have h2 : ∀ (x : Sec α) cl cd, errFunInv R.plain x cl cd = errFunInv R x cl cd := fun _ _ _ => rfl
    simp only [stationErrf, h1, h2]
    rfl
  simp only [stationPhi, he]
  rfl

theorem plain_solveStation (bq : RootFinder α) (R : Rotor α) (pitch Omega : α) (V : ℕ → α × α) (i : ℕ) :
    (∀ s, solveStation bq R pitch Omega V i = .ok s → solveStation bq R.plain pitch Omega V i = .ok s) ∧
    (∀ s, solveStation bq R.plain pitch Omega V i = .ok s →
      solveStation bq R pitch Omega V i = .ok s ∨ (R.derivatives = true ∧ solveStation bq R pitch Omega V i = .error .valueError)) := by
  unfold solveStation
  rw [plain_stationPhi]
  cases stationPhi bq R pitch Omega V i with
  | error e => constructor <;> intro s h <;> cases h
  | ok p =>
    obtain ⟨phi, w⟩ := p
    have ht : stationTheta R.plain pitch phi i = stationTheta R pitch phi i := rfl
    have hs : ∀ th, stationSec R.plain V i th = stationSec R V i th := fun _ => rfl
    simp only [ht, hs]
    obtain ⟨h1, h2⟩ := plain_secLoads R pitch phi (!(Omega == 0)) (stationSec R V i (stationTheta R pitch phi i))
    constructor
    · intro s h
      cases hl : secLoads R pitch phi (!(Omega == 0)) (stationSec R V i (stationTheta R pitch phi i)) with
      | error e => rw [hl] at h; cases h
      | ok q =>
        rw [hl] at h
        rw [h1 q hl]
        exact h
    · intro s h
      cases hl : secLoads R.plain pitch phi (!(Omega == 0)) (stationSec R V i (stationTheta R pitch phi i)) with
      | error e => rw [hl] at h; cases h
      | ok q =>
        rw [hl] at h
        rcases h2 q hl with h3 | ⟨h3, h4⟩
        · rw [h3]
          exact .inl h
        · rw [h4]
          exact .inr ⟨h3, rfl⟩

theorem plain_solveStations (bq : RootFinder α) (R : Rotor α) (pitch Omega : α) (V : ℕ → α × α) : ∀ k,
    (∀ l, solveStations bq R pitch Omega V k = .ok l → solveStations bq R.plain pitch Omega V k = .ok l) ∧
    (∀ l, solveStations bq R.plain pitch Omega V k = .ok l →
      solveStations bq R pitch Omega V k = .ok l ∨
        (R.derivatives = true ∧ solveStations bq R pitch Omega V k = .error .valueError))
  | 0 => ⟨fun l h => h, fun l h => .inl h⟩
  | k + 1 => by
    obtain ⟨i1, i2⟩ := plain_solveStations bq R pitch Omega V k
    obtain ⟨s1, s2⟩ := plain_solveStation bq R pitch Omega V k
    simp only [solveStations, bind, Except.bind, pure, Except.pure]
    constructor
    · intro l h
      cases h1 : solveStations bq R pitch Omega V k with
      | error e => rw [h1] at h; cases h
      | ok done =>
        rw [h1] at h
        rw [i1 done h1]
        simp only at h ⊢
        cases h2 : solveStation bq R pitch Omega V k with
        | error e => rw [h2] at h; cases h
        | ok s =>
          rw [h2] at h
          rw [s1 s h2]
          exact h
    · intro l h
      cases h1 : solveStations bq R.plain pitch Omega V k with
      | error e => rw [h1] at h; cases h
      | ok done =>
        rw [h1] at h
        simp only at h
        rcases i2 done h1 with h3 | ⟨h3, h4⟩
        · rw [h3]
          simp only
          cases h2 : solveStation bq R.plain pitch Omega V k with
          | error e => rw [h2] at h; cases h
          | ok s =>
            rw [h2] at h
            rcases s2 s h2 with h5 | ⟨h5, h6⟩
            · rw [h5]
              exact .inl h
            · rw [h6]
              exact .inr ⟨h5, rfl⟩
        · rw [h4]
          exact .inr ⟨h3, rfl⟩

/-- Equal numbers of two accumulators. -/
structure AccSame (a b : RotorAcc α) : Prop where
  T : a.T.val = b.T.val
  Y : a.Y.val = b.Y.val
  Z : a.Z.val = b.Z.val
  Q : a.Q.val = b.Q.val
  My : a.My.val = b.My.val
  Mz : a.Mz.val = b.Mz.val
  Mb : a.Mb.val = b.Mb.val
  W : a.W = b.W

/-- The object without derivatives, with any stored derivatives. -/
def Rotor.bare (R : Rotor α) (sv : Option (LoadJac α)) : Rotor α := { R with derivatives := false, saved := sv }

theorem bare_solveStations (bq : RootFinder α) (R : Rotor α) (sv : Option (LoadJac α)) (pitch Omega : α) (V : ℕ → α × α) (k : ℕ) :
    solveStations bq (R.bare sv) pitch Omega V k = solveStations bq R.plain pitch Omega V k :=
  solveStations_congr fun i _ => SameCore.solveStation (S := R.bare sv) (R := R.plain)
    ⟨rfl, rfl, rfl, rfl, rfl, rfl, rfl, rfl⟩ bq _ _ _ i rfl rfl rfl rfl (fun _ => rfl)

theorem bare_loads (bq : RootFinder α) (R R' : Rotor α) (sv : Option (LoadJac α)) (Uinf Omega pitch az : α) (L : LoadsOut α)
    (h : distributedAeroLoads bq R Uinf Omega pitch az = (R', .ok L)) :
    distributedAeroLoads bq (R.bare sv) Uinf Omega pitch az = (R'.bare sv, .ok ⟨L.stations, [], []⟩) := by
  have hs := distributedAeroLoads_stations h
  have h1 := (plain_solveStations bq R (deg2rad pitch) Omega (rotorWind R Uinf Omega (deg2rad az)) R.n).1 _ hs
  rw [← bare_solveStations bq R sv] at h1
  have hw : rotorWind (R.bare sv) Uinf Omega (deg2rad az) = rotorWind R Uinf Omega (deg2rad az) := rfl
  unfold distributedAeroLoads at h ⊢
  simp only [hs] at h
  simp only [hw, show (R.bare sv).n = R.n from rfl, h1, show (R.bare sv).derivatives = false from rfl, Bool.false_eq_true,
    if_false, show (R.bare sv).inv = R.inv from rfl]
  cases hi : R.inv with
  | none =>
    rw [hi] at h
    simp only at h ⊢
    split_ifs at h <;> (obtain ⟨rfl, -⟩ := Prod.mk.injEq .. ▸ h; rfl)
  | some d =>
    rw [hi] at h
    simp only at h ⊢
    split_ifs at h <;> (obtain ⟨rfl, -⟩ := Prod.mk.injEq .. ▸ h; rfl)

theorem bare_sectorStep (R : Rotor α) (sv : Option (LoadJac α)) (az : α) (L : LoadsOut α) (a b : RotorAcc α) (h : AccSame a b) :
    AccSame (sectorStep R az L a) (sectorStep (R.bare sv) az ⟨L.stations, [], []⟩ b) := by
  have e : (if (R.bare sv).derivatives = true then (R.bare sv).saved else none) = none := rfl
  simp only [sectorStep, e]
  generalize (if R.derivatives = true then R.saved else none) = o
  cases o <;> constructor <;>
    simp only [Quant.add, Quant.map2, h.T, h.Y, h.Z, h.Q, h.My, h.Mz, h.Mb] <;> rfl

theorem bare_sectorLoop (bq : RootFinder α) (Uinf Omega pitch : α) (sv : Option (LoadJac α)) :
    ∀ (azs : List α) (R R' : Rotor α) (a b acc : RotorAcc α), AccSame a b →
      sectorLoop bq Uinf Omega pitch azs R a = (R', .ok acc) →
      ∃ acc0, sectorLoop bq Uinf Omega pitch azs (R.bare sv) b = (R'.bare sv, .ok acc0) ∧ AccSame acc acc0
  | [], R, R', a, b, acc, hab, h => by
    cases h
    exact ⟨b, rfl, hab⟩
  | az :: rest, R, R', a, b, acc, hab, h => by
    unfold sectorLoop at h ⊢
    cases hd : distributedAeroLoads bq R Uinf Omega pitch (rad2deg az) with
    | mk R1 res =>
      rw [hd] at h
      cases res with
      | error e => cases h
      | ok L =>
        rw [bare_loads bq R R1 sv _ _ _ _ L hd]
        exact bare_sectorLoop bq Uinf Omega pitch sv rest R1 R' _ _ acc (bare_sectorStep R1 sv az L a b hab) h

theorem bare_condLoop (bq : RootFinder α) (sv : Option (LoadJac α)) : ∀ (cs : List (Cond α)) (R R' : Rotor α) (l : List (RotorAcc α)),
    condLoop bq cs R = (R', .ok l) →
    ∃ l0, condLoop bq cs (R.bare sv) = (R'.bare sv, .ok l0) ∧ List.Forall₂ AccSame l l0
  | [], R, R', l, h => by
    cases h
    exact ⟨[], rfl, .nil⟩
  | c :: rest, R, R', l, h => by
    unfold condLoop at h ⊢
    have hz : AccSame (RotorAcc.zero : RotorAcc α) RotorAcc.zero := ⟨rfl, rfl, rfl, rfl, rfl, rfl, rfl, rfl⟩
    cases hs : sectorLoop bq c.Uinf c.Omega c.pitch (azimuthAngles R.nSector) R .zero with
    | mk R1 res =>
      rw [hs] at h
      cases res with
      | error e => cases h
      | ok acc =>
        obtain ⟨acc0, e1, e2⟩ := bare_sectorLoop bq _ _ _ sv _ R R1 _ _ acc hz hs
        rw [show (R.bare sv).nSector = R.nSector from rfl, e1]
        simp only at h ⊢
        cases hc : condLoop bq rest R1 with
        | mk R2 res2 =>
          rw [hc] at h
          cases res2 with
          | error e => cases h
          | ok l1 =>
            obtain ⟨l2, e3, e4⟩ := bare_condLoop bq sv rest R1 R2 l1 hc
            rw [e3]
            cases h
            exact ⟨acc0 :: l2, rfl, .cons e2 e4⟩

theorem bare_loads_conv (bq : RootFinder α) (R : Rotor α) (sv : Option (LoadJac α)) (Uinf Omega pitch az : α) (L : LoadsOut α)
    (h : (distributedAeroLoads bq (R.bare sv) Uinf Omega pitch az).2 = .ok L) :
    (∃ L', (distributedAeroLoads bq R Uinf Omega pitch az).2 = .ok L') ∨
      (distributedAeroLoads bq R Uinf Omega pitch az).2 = .error .valueError := by
  have hl := distributedAeroLoads_stations (Prod.ext rfl h : distributedAeroLoads bq (R.bare sv) Uinf Omega pitch az = (_, .ok L))
  rw [bare_solveStations] at hl
  rcases (plain_solveStations bq R (deg2rad pitch) Omega (rotorWind R Uinf Omega (deg2rad az)) R.n).2 _ hl with h3 | ⟨-, h4⟩
  · left
    obtain ⟨L', h, -⟩ := distributedAeroLoads_of_stations h3
    exact ⟨L', h⟩
  · right
    unfold distributedAeroLoads
    simp only [h4]

theorem bare_sectorLoop_conv (bq : RootFinder α) (Uinf Omega pitch : α) (sv : Option (LoadJac α)) :
    ∀ (azs : List α) (R : Rotor α) (a b acc0 : RotorAcc α), AccSame a b →
      (sectorLoop bq Uinf Omega pitch azs (R.bare sv) b).2 = .ok acc0 →
      (∃ acc, (sectorLoop bq Uinf Omega pitch azs R a).2 = .ok acc) ∨ (sectorLoop bq Uinf Omega pitch azs R a).2 = .error .valueError
  | [], R, a, b, acc0, _, _ => .inl ⟨a, rfl⟩
  | az :: rest, R, a, b, acc0, hab, h => by
    unfold sectorLoop at h ⊢
    cases hd : distributedAeroLoads bq R Uinf Omega pitch (rad2deg az) with
    | mk R1 res =>
      cases res with
      | error e =>
        cases hb : distributedAeroLoads bq (R.bare sv) Uinf Omega pitch (rad2deg az) with
        | mk R2 res2 =>
          rw [hb] at h
          cases res2 with
          | error e => cases h
          | ok L2 =>
            have := bare_loads_conv bq R sv Uinf Omega pitch (rad2deg az) L2 (by rw [hb])
            rw [hd] at this
            rcases this with ⟨_, h⟩ | h
            · cases h
            · cases h
              exact .inr rfl
      | ok L =>
        rw [bare_loads bq R R1 sv _ _ _ _ L hd] at h
        exact bare_sectorLoop_conv bq Uinf Omega pitch sv rest R1 _ _ acc0 (bare_sectorStep R1 sv az L a b hab) h

theorem bare_condLoop_conv (bq : RootFinder α) (sv : Option (LoadJac α)) : ∀ (cs : List (Cond α)) (R : Rotor α) (l0 : List (RotorAcc α)),
    (condLoop bq cs (R.bare sv)).2 = .ok l0 →
    (∃ l, (condLoop bq cs R).2 = .ok l) ∨ (condLoop bq cs R).2 = .error .valueError
  | [], R, l0, _ => .inl ⟨[], rfl⟩
  | c :: rest, R, l0, h => by
    unfold condLoop at h ⊢
    have hz : AccSame (RotorAcc.zero : RotorAcc α) RotorAcc.zero := ⟨rfl, rfl, rfl, rfl, rfl, rfl, rfl, rfl⟩
    cases hs : sectorLoop bq c.Uinf c.Omega c.pitch (azimuthAngles R.nSector) R .zero with
    | mk R1 res =>
      cases res with
      | error e =>
        cases hb : sectorLoop bq c.Uinf c.Omega c.pitch (azimuthAngles R.nSector) (R.bare sv) .zero with
        | mk R2 res2 =>
          rw [show (R.bare sv).nSector = R.nSector from rfl, hb] at h
          cases res2 with
          | error e => cases h
          | ok acc0 =>
            have := bare_sectorLoop_conv bq c.Uinf c.Omega c.pitch sv (azimuthAngles R.nSector) R _ _ acc0 hz (by rw [hb])
            rw [hs] at this
            rcases this with ⟨_, h⟩ | h
            · cases h
            · cases h
              exact .inr rfl
      | ok acc =>
        obtain ⟨acc0, e1, -⟩ := bare_sectorLoop bq _ _ _ sv _ R R1 _ _ acc hz hs
        rw [show (R.bare sv).nSector = R.nSector from rfl, e1] at h
        simp only at h ⊢
        cases hc : condLoop bq rest (R1.bare sv) with
        | mk R2 res2 =>
          rw [hc] at h
          cases res2 with
          | error e => cases h
          | ok l1 =>
            rcases bare_condLoop_conv bq sv rest R1 l1 (by rw [hc]) with ⟨l, h⟩ | h
            · left
              cases hr : condLoop bq rest R1 with
              | mk R3 res3 =>
                rw [hr] at h
                cases h
                exact ⟨_, rfl⟩
            · right
              cases hr : condLoop bq rest R1 with
              | mk R3 res3 =>
                rw [hr] at h
                cases h
                rfl

/-! ## C83 -/

/-- **C83** `distributedAeroLoads`: if the call of an object returns, so does that of the object constructed without derivatives,
with the same inflow angles, twists and loads at all stations and no dictionaries; conversely a call that returns without
derivatives returns the same with derivatives, or raises `ValueError`. -/
theorem loads_values_flag (bq : RootFinder α) (R : Rotor α) (Uinf Omega pitch az : α) :
    (∀ L, (distributedAeroLoads bq R Uinf Omega pitch az).2 = .ok L →
      (distributedAeroLoads bq { R with derivatives := false } Uinf Omega pitch az).2 = .ok ⟨L.stations, [], []⟩) ∧
    ∀ L, (distributedAeroLoads bq { R with derivatives := false } Uinf Omega pitch az).2 = .ok L →
      (∃ L', (distributedAeroLoads bq R Uinf Omega pitch az).2 = .ok L' ∧ L'.stations = L.stations) ∨
      (R.derivatives = true ∧ (distributedAeroLoads bq R Uinf Omega pitch az).2 = .error .valueError) := by
  obtain ⟨h1, h2⟩ := plain_solveStations bq R (deg2rad pitch) Omega (rotorWind R Uinf Omega (deg2rad az)) R.n
  have hw : rotorWind R.plain Uinf Omega (deg2rad az) = rotorWind R Uinf Omega (deg2rad az) := rfl
  have hp : ∀ l, solveStations bq R.plain (deg2rad pitch) Omega (rotorWind R Uinf Omega (deg2rad az)) R.n = .ok l →
      (distributedAeroLoads bq R.plain Uinf Omega pitch az).2 = .ok ⟨l, [], []⟩ := by
    intro l hl
    unfold distributedAeroLoads
    simp only [hw, show R.plain.n = R.n from rfl, hl, show R.plain.derivatives = false from rfl, Bool.false_eq_true, if_false]
  constructor
  · intro L h
    refine hp _ ?_
    have := distributedAeroLoads_stations (Prod.ext rfl h : distributedAeroLoads bq R Uinf Omega pitch az = (_, .ok L))
    exact h1 _ this
  · intro L h
    have hl := distributedAeroLoads_stations (Prod.ext rfl h : distributedAeroLoads bq R.plain Uinf Omega pitch az = (_, .ok L))
    rcases h2 _ hl with h3 | ⟨h3, h4⟩
    · left
      exact distributedAeroLoads_of_stations h3
    · right
      refine ⟨h3, ?_⟩
      unfold distributedAeroLoads
      simp only [h4]

/-- Non-vacuity: a call of an object with derivatives that returns. -/
example : ∃ L, (distributedAeroLoads dictBq ((dictCurve 1).rotor dictRotor) (dictCurve 1).Uinf (dictCurve 1).Omega (dictCurve 1).pitch
    (dictCurve 1).azimuth).2 = .ok L ∧ ((dictCurve 1).rotor dictRotor).derivatives = true := by
  obtain ⟨L, h⟩ := dictCurve_call 1 one_pos
  exact ⟨L, h, rfl⟩

/-- **C83** `evaluate`: if the call of an object returns, so does that of the object constructed without derivatives, and all numbers
other than derivatives are the same. -/
theorem evaluate_values_flag (bq : RootFinder α) (R : Rotor α) (cs : List (Cond α)) (co : Bool) (o : EvalOut α)
    (h : (evaluate bq R cs co).2 = .ok o) :
    ∃ o', (evaluate bq { R with derivatives := false } cs co).2 = .ok o' ∧ o'.W = o.W ∧
      List.Forall₂ SameNumbers o.conds o'.conds := by
  unfold evaluate at h ⊢
  cases hc : condLoop bq cs R with
  | mk R' res =>
    rw [hc] at h
    cases res with
    | error e => cases h
    | ok l =>
      obtain ⟨l0, e0, e2⟩ := bare_condLoop bq R.saved cs R R' l hc
      have e1 : condLoop bq cs { R with derivatives := false } = (R'.bare R.saved, .ok l0) := e0
      rw [e1]
      simp only at h ⊢
      have hW : (l0.getLast?.bind RotorAcc.W) = l.getLast?.bind RotorAcc.W := by
        clear e0 e1 hc h
        induction e2 with
        | nil => rfl
        | @cons a b l1 l2 hab hl ih =>
          cases hl with
          | nil => simp [hab.W]
          | cons h1 h2 =>
            rw [List.getLast?_cons_cons, List.getLast?_cons_cons]
            exact ih
      rw [hW]
      cases hw : l.getLast?.bind RotorAcc.W with
      | none => rw [hw] at h; cases h
      | some W =>
        rw [hw] at h
        cases h
        refine ⟨_, rfl, rfl, ?_⟩
        clear e0 e1 hc hW hw
        simp only
        induction e2 generalizing cs with
        | nil => cases cs <;> exact .nil
        | @cons a b l1 l2 hab hl ih =>
          cases cs with
          | nil => exact .nil
          | cons c cs =>
            refine .cons ?_ (ih cs)
            cases co
            · constructor <;> simp [power, hab.T, hab.Y, hab.Z, hab.Q, hab.My, hab.Mz, hab.Mb]
            · constructor <;> simp [power, coefs, hab.T, hab.Y, hab.Z, hab.Q, hab.My, hab.Mz, hab.Mb]

/-- **C83** `evaluate`: a call that returns without derivatives returns the same numbers with derivatives, or raises `ValueError`. -/
theorem evaluate_values_flag_conv (bq : RootFinder α) (R : Rotor α) (cs : List (Cond α)) (co : Bool) (o' : EvalOut α)
    (h : (evaluate bq { R with derivatives := false } cs co).2 = .ok o') :
    (∃ o, (evaluate bq R cs co).2 = .ok o ∧ o'.W = o.W ∧ List.Forall₂ SameNumbers o.conds o'.conds) ∨
    (R.derivatives = true ∧ (evaluate bq R cs co).2 = .error .valueError) := by
  cases hr : (evaluate bq R cs co).2 with
  | ok o =>
    left
    obtain ⟨o1, h1, h2, h3⟩ := evaluate_values_flag bq R cs co o hr
    rw [h] at h1
    cases h1
    exact ⟨o, rfl, h2, h3⟩
  | error e =>
    right
    constructor
    · by_contra hd
      have : R = { R with derivatives := false } := by
        cases R
        simp only [Bool.not_eq_true] at hd
        simp only [hd]
      rw [this] at hr
      rw [h] at hr
      cases hr
    · unfold evaluate at h hr
      have hc : condLoop bq cs { R with derivatives := false } = condLoop bq cs (R.bare R.saved) := rfl
      rw [hc] at h
      cases hb : condLoop bq cs (R.bare R.saved) with
      | mk R2 res2 =>
        rw [hb] at h
        cases res2 with
        | error e => cases h
        | ok l0 =>
          cases hn : condLoop bq cs R with
          | mk R1 res =>
            rcases bare_condLoop_conv bq R.saved cs R l0 (by rw [hb]) with ⟨l, hl⟩ | hl
            · exfalso
              rw [hn] at hl hr
              cases hl
              obtain ⟨l1, e1, e2⟩ := bare_condLoop bq R.saved cs R R1 l hn
              rw [hb] at e1
              cases e1
              have hW : (l0.getLast?.bind RotorAcc.W) = l.getLast?.bind RotorAcc.W := by
                clear hb hn h hr hc
                induction e2 with
                | nil => rfl
                | @cons a b l1 l2 hab hl ih =>
                  cases hl with
                  | nil => simp [hab.W]
                  | cons h1 h2 =>
                    rw [List.getLast?_cons_cons, List.getLast?_cons_cons]
                    exact ih
              simp only at h hr
              rw [hW] at h
              cases hw : l.getLast?.bind RotorAcc.W with
              | none => rw [hw] at h; cases h
              | some W => rw [hw] at hr; cases hr
            · rw [hn] at hl hr
              cases hl
              simp only at hr
              cases hr
              rfl

/-- Non-vacuity: an evaluation with derivatives that returns. -/
example : ∃ o R, (evaluate plainBq R ((tipCurve 1).conds 2) true).2 = .ok o ∧ R.derivatives = true := by
  obtain ⟨o, -, h, -⟩ := tipCurve_calls 2 (by norm_num)
  exact ⟨_, _, h 1, rfl⟩

end Verif
