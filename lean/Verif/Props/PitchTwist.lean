import Verif.Props.RotorDict
import Verif.Props.Twist
import Verif.Props.Constructor
import Verif.Lemmas.Units

/-!
# C103: only the sum of twist and pitch matters
-/

namespace Verif

/-- The rotor `R'` has the blades of `R` with the twist of every station smaller by `d` radians (what earlier calls stored as
the current pitch does not matter). -/
def Turned (d : ℝ) (R R' : Rotor ℝ) : Prop :=
  ∃ t p, R' = { R with theta := t, pitch := p } ∧ ∀ i < R.n, t i = R.theta i - d

/-- The result of a station with another twist -/
def Station.turn (d : ℝ) (s : Station ℝ) : Station ℝ := { s with theta := s.theta - d }

/-- A section with another twist -/
def Sec.turn (d : ℝ) (x : Sec ℝ) : Sec ℝ := { x with theta := x.theta - d }

section
variable (R : Rotor ℝ) (t : ℕ → ℝ) (q : Option ℝ) (d pitch phi : ℝ) (x : Sec ℝ)

theorem bemPass_turn (a ap : ℝ) :
    bemPass { R with theta := t, pitch := q } (pitch + d) phi (x.turn d) a ap = bemPass R pitch phi x a ap := by
  simp only [bemPass, relativeWind, Sec.turn, show x.theta - d + (pitch + d) = x.theta + pitch by ring]

theorem bemPasses_turn (k : ℕ) (o : BemOut ℝ) :
    bemPasses { R with theta := t, pitch := q } (pitch + d) phi (x.turn d) k o = bemPasses R pitch phi x k o := by
  induction k generalizing o with
  | zero => rfl
  | succ k ih => simp only [bemPasses, bemPass_turn, ih]

theorem runBEM_turn : runBEM { R with theta := t, pitch := q } (pitch + d) phi (x.turn d) = runBEM R pitch phi x := by
  simp only [runBEM, bemPass_turn, bemPasses_turn]

theorem secValues_turn (rot : Bool) :
    secValues { R with theta := t, pitch := q } (pitch + d) phi rot (x.turn d) = secValues R pitch phi rot x := by
  simp only [secValues, runBEM_turn]
  simp only [relativeWind, Sec.turn, show x.theta - d + (pitch + d) = x.theta + pitch by ring]

theorem secDerivs_turn (rot : Bool) (v : SecLoads ℝ) :
    secDerivs { R with theta := t, pitch := q } (pitch + d) phi rot (x.turn d) v = secDerivs R pitch phi rot x v := by
  simp only [secDerivs, residualDerivatives, relativeWind, relativeWindDv, Sec.turn,
    show x.theta - d + (pitch + d) = x.theta + pitch by ring]
  rfl

theorem secLoads_turn (rot : Bool) :
    secLoads { R with theta := t, pitch := q } (pitch + d) phi rot (x.turn d) = secLoads R pitch phi rot x := by
  simp only [secLoads, secValues_turn, secDerivs_turn]
  rfl

end

/-- One station -/
theorem solveStation_turn (bq : RootFinder ℝ) {d : ℝ} {R R' : Rotor ℝ} (h : Turned d R R') (pitch Omega : ℝ) (V : ℕ → ℝ × ℝ)
    {i : ℕ} (hi : i < R.n) :
    solveStation bq R' (pitch + d) Omega V i = (solveStation bq R pitch Omega V i).map (Station.turn d) := by
  obtain ⟨t, q, rfl, ht⟩ := h
  have hsec : ∀ th, stationSec { R with theta := t, pitch := q } V i (th - d) = (stationSec R V i th).turn d := fun _ => rfl
  have hphi : stationPhi bq { R with theta := t, pitch := q } (pitch + d) Omega V i = stationPhi bq R pitch Omega V i := by
    have e1 : errFun { R with theta := t, pitch := q } (pitch + d) (stationSec { R with theta := t, pitch := q } V i (t i)) =
        errFun R pitch (stationSec R V i (R.theta i)) := by
      funext phi
      rw [ht i hi, hsec]
      simp only [errFun, runBEM_turn]
    have e2 : stationErrf { R with theta := t, pitch := q } (pitch + d) V i = stationErrf R pitch V i := by
      simp only [stationErrf, e1]
      rfl
    simp only [stationPhi, e2]
  have hth : ∀ phi, stationTheta { R with theta := t, pitch := q } (pitch + d) phi i = stationTheta R pitch phi i - d := by
    intro phi
    simp only [stationTheta]
    cases R.inv with
    | some dd => simp only; ring
    | none => exact ht i hi
  simp only [solveStation, hphi]
  cases stationPhi bq R pitch Omega V i with
  | error e => rfl
  | ok w =>
    obtain ⟨phi, warned⟩ := w
    simp only [hth, hsec, secLoads_turn]
    cases secLoads R pitch phi (!(Omega == 0)) (stationSec R V i (stationTheta R pitch phi i)) with
    | error e => rfl
    | ok l =>
      obtain ⟨l, dl⟩ := l
      simp only
      split_ifs <;> rfl

theorem solveStations_turn (bq : RootFinder ℝ) {d : ℝ} {R R' : Rotor ℝ} (h : Turned d R R') (pitch Omega : ℝ) (V : ℕ → ℝ × ℝ) :
    ∀ {k : ℕ}, k ≤ R.n →
      solveStations bq R' (pitch + d) Omega V k = (solveStations bq R pitch Omega V k).map (List.map (Station.turn d))
  | 0, _ => rfl
  | k + 1, hk => by
    simp only [solveStations]
    rw [solveStations_turn bq h pitch Omega V (by omega), solveStation_turn bq h pitch Omega V (by omega : k < R.n)]
    cases solveStations bq R pitch Omega V k with
    | error e => rfl
    | ok l =>
      cases solveStation bq R pitch Omega V k with
      | error e => rfl
      | ok s => simp [Except.map, bind, Except.bind, pure, Except.pure]

theorem stationArr_turn (d : ℝ) (s : List (Station ℝ)) (f : SecLoads ℝ → ℝ) :
    stationArr (s.map (Station.turn d)) f = stationArr s f := by
  funext i
  simp only [stationArr, List.getElem?_map, Option.map_map]
  rfl

theorem stationD_turn (d : ℝ) (s : List (Station ℝ)) (f : Station ℝ → ℕ → ℝ) (hf : ∀ s, f (Station.turn d s) = f s) :
    stationD (s.map (Station.turn d)) f = stationD s f := by
  funext i k
  simp only [stationD, List.getElem?_map, Option.map_map]
  congr 2
  funext x
  simp [hf]

/-- **C103** The distributed loads of a blade whose twist is smaller by some angle, at a pitch larger by that angle, are those of
the original blade, with all derivatives (or the same exception); also in the inverse analysis, where the twist found is smaller by
that angle. -/
theorem loads_twist_pitch (bq : RootFinder ℝ) {d : ℝ} {R R' : Rotor ℝ} (h : Turned d R R') (Uinf Omega pitch az : ℝ) :
    (distributedAeroLoads bq R' Uinf Omega (pitch + d * (180 / Real.pi)) az).2 =
      (distributedAeroLoads bq R Uinf Omega pitch az).2.map (fun L => { L with stations := L.stations.map (Station.turn d) }) ∧
    Turned d (distributedAeroLoads bq R Uinf Omega pitch az).1
      (distributedAeroLoads bq R' Uinf Omega (pitch + d * (180 / Real.pi)) az).1 := by
  have hd : deg2rad (pitch + d * (180 / Real.pi)) = deg2rad pitch + d := by
    simp only [real_deg2rad]
    field_simp
  have hst := solveStations_turn bq h (deg2rad pitch) Omega (rotorWind R Uinf Omega (deg2rad az)) le_rfl
  obtain ⟨t, q, rfl, ht⟩ := h
  have hw : rotorWind { R with theta := t, pitch := q } = rotorWind R := rfl
  simp only [distributedAeroLoads, hd, hw, hst]
  cases hs : solveStations bq R (deg2rad pitch) Omega (rotorWind R Uinf Omega (deg2rad az)) R.n with
  | error e => exact ⟨rfl, t, _, rfl, ht⟩
  | ok s =>
    have hJ : loadJac { R with theta := t, pitch := q } Uinf Omega (deg2rad az) (s.map (Station.turn d)) =
        loadJac R Uinf Omega (deg2rad az) s := by
      simp only [loadJac, stationD_turn d s Station.dNp fun _ => rfl, stationD_turn d s Station.dTp fun _ => rfl]
      rfl
    have hlen := (solveStations_ok hs).1
    simp only [Except.map, hJ]
    have hth : ∀ i < R.n, (((s.map (Station.turn d))[i]?).map Station.theta).getD 0 =
        ((s[i]?).map Station.theta).getD 0 - d := by
      intro i hi
      rw [List.getElem?_map, List.getElem?_eq_getElem (by omega)]
      rfl
    cases R.derivatives <;> cases R.inv
    all_goals first
      | exact ⟨rfl, t, _, rfl, ht⟩
      | exact ⟨rfl, _, _, rfl, hth⟩

theorem sectorStep_turn (d : ℝ) {R R' : Rotor ℝ} (h : Turned d R R') (az : ℝ) (L : LoadsOut ℝ) (acc : RotorAcc ℝ) :
    sectorStep R' az { L with stations := L.stations.map (Station.turn d) } acc = sectorStep R az L acc := by
  obtain ⟨t, q, rfl, -⟩ := h
  simp only [sectorStep, stationArr_turn]
  rfl

theorem sectorLoop_turn (bq : RootFinder ℝ) (d Uinf Omega pitch : ℝ) :
    ∀ (azs : List ℝ) {R R' : Rotor ℝ} (_ : Turned d R R') (acc : RotorAcc ℝ),
      (sectorLoop bq Uinf Omega (pitch + d * (180 / Real.pi)) azs R' acc).2 = (sectorLoop bq Uinf Omega pitch azs R acc).2 ∧
      Turned d (sectorLoop bq Uinf Omega pitch azs R acc).1
        (sectorLoop bq Uinf Omega (pitch + d * (180 / Real.pi)) azs R' acc).1
  | [], _, _, h, _ => ⟨rfl, h⟩
  | az :: rest, R, R', h, acc => by
    obtain ⟨h1, h2⟩ := loads_twist_pitch bq h Uinf Omega pitch (rad2deg az)
    unfold sectorLoop
    generalize distributedAeroLoads bq R' Uinf Omega (pitch + d * (180 / Real.pi)) (rad2deg az) = y at *
    generalize distributedAeroLoads bq R Uinf Omega pitch (rad2deg az) = z at *
    obtain ⟨S', y⟩ := y
    obtain ⟨S, z⟩ := z
    simp only at h1 h2
    subst h1
    cases z with
    | error e => exact ⟨rfl, h2⟩
    | ok L =>
      simp only [Except.map, sectorStep_turn d h2]
      exact sectorLoop_turn bq d Uinf Omega pitch rest h2 _

/-- An operating condition with a larger pitch -/
noncomputable def Cond.turn (d : ℝ) (c : Cond ℝ) : Cond ℝ := { c with pitch := c.pitch + d * (180 / Real.pi) }

theorem condLoop_turn (bq : RootFinder ℝ) (d : ℝ) :
    ∀ (cs : List (Cond ℝ)) {R R' : Rotor ℝ} (_ : Turned d R R'),
      (condLoop bq (cs.map (Cond.turn d)) R').2 = (condLoop bq cs R).2 ∧
      Turned d (condLoop bq cs R).1 (condLoop bq (cs.map (Cond.turn d)) R').1
  | [], _, _, h => ⟨rfl, h⟩
  | c :: rest, R, R', h => by
    obtain ⟨h1, h2⟩ := sectorLoop_turn bq d c.Uinf c.Omega c.pitch (azimuthAngles R.nSector) h .zero
    have hn : R'.nSector = R.nSector := by
      obtain ⟨t, q, rfl, -⟩ := h
      rfl
    simp only [List.map_cons]
    unfold condLoop
    rw [hn]
    simp only [Cond.turn]
    generalize sectorLoop bq c.Uinf c.Omega (c.pitch + d * (180 / Real.pi)) (azimuthAngles R.nSector) R' .zero = y at *
    generalize sectorLoop bq c.Uinf c.Omega c.pitch (azimuthAngles R.nSector) R .zero = z at *
    obtain ⟨S', y⟩ := y
    obtain ⟨S, z⟩ := z
    simp only at h1 h2
    subst h1
    cases y with
    | error e => exact ⟨rfl, h2⟩
    | ok a =>
      obtain ⟨g1, g2⟩ := condLoop_turn bq d rest h2
      have e : (fun c : Cond ℝ => ({ Uinf := c.Uinf, Omega := c.Omega, pitch := c.pitch + d * (180 / Real.pi) } : Cond ℝ)) =
        Cond.turn d := rfl
      simp only [e]
      generalize condLoop bq (rest.map (Cond.turn d)) S' = y at *
      generalize condLoop bq rest S = z at *
      obtain ⟨S1', y⟩ := y
      obtain ⟨S1, z⟩ := z
      simp only at g1 g2
      subst g1
      cases y with
      | error e => exact ⟨rfl, g2⟩
      | ok l => exact ⟨rfl, g2⟩

/-- **C103** The rotor outputs (forces, moments, power, coefficients, all derivatives, or the exception) of a rotor whose twist is
smaller by some angle, at pitch angles larger by that angle, are those of the original rotor. -/
theorem evaluate_twist_pitch (bq : RootFinder ℝ) {d : ℝ} {R R' : Rotor ℝ} (h : Turned d R R') (cs : List (Cond ℝ)) (co : Bool) :
    (evaluate bq R' (cs.map (Cond.turn d)) co).2 = (evaluate bq R cs co).2 := by
  obtain ⟨h1, -⟩ := condLoop_turn bq d cs h
  have hc : ∀ c a, coefs R' (Cond.turn d c) a = coefs R c a := by
    obtain ⟨t, q, rfl, -⟩ := h
    exact fun _ _ => rfl
  unfold evaluate
  generalize condLoop bq (cs.map (Cond.turn d)) R' = y at *
  generalize condLoop bq cs R = z at *
  obtain ⟨S', y⟩ := y
  obtain ⟨S, z⟩ := z
  simp only at h1
  subst h1
  cases y with
  | error e => rfl
  | ok l =>
    simp only
    cases l.getLast?.bind RotorAcc.W with
    | none => rfl
    | some W => simp only [List.zipWith_map_left, hc]; rfl

/-- The constructor with the twist of all stations smaller by `e` degrees -/
theorem build_turned (x : CCArgs ℝ) (e : ℝ) :
    ({ x with theta := fun i => x.theta i - e } : CCArgs ℝ).build =
      x.build.map (fun R => { R with theta := fun i => R.theta i - e * (Real.pi / 180) }) := by
  have ht : ∀ i, deg2rad (x.theta i - e) = deg2rad (x.theta i) - e * (Real.pi / 180) := fun i => by
    simp only [real_deg2rad]
    ring
  simp only [CCArgs.build, bind, Except.bind, pure, Except.pure, ht]
  generalize npInterp (α := ℝ) _ _ = a1
  generalize npInterp (α := ℝ) _ _ = a2
  generalize npInterp (α := ℝ) _ _ = a3
  generalize npInterp (α := ℝ) _ _ = a4
  by_cases hn : x.n = 0
  · simp only [if_pos hn]
    rfl
  · simp only [if_neg hn]
    cases a1 <;> [rfl; cases a2 <;> [rfl; cases a3 <;> [rfl; cases a4 <;> rfl]]]

/-- **C103** As a user sees it, angles in degrees: two blades described alike except that the twist of all stations is smaller by `e`
give at a pitch larger by `e` the same rotor outputs. -/
theorem twist_pitch (bq : RootFinder ℝ) (x : CCArgs ℝ) (e : ℝ) {R : Rotor ℝ} (h : x.build = .ok R) (cs : List (Cond ℝ)) (co : Bool) :
    ∃ R', ({ x with theta := fun i => x.theta i - e } : CCArgs ℝ).build = .ok R' ∧
      (evaluate bq R' (cs.map fun c => { c with pitch := c.pitch + e }) co).2 = (evaluate bq R cs co).2 := by
  rw [build_turned, h]
  refine ⟨_, rfl, ?_⟩
  have ht : Turned (e * (Real.pi / 180)) R { R with theta := fun i => R.theta i - e * (Real.pi / 180) } :=
    ⟨_, R.pitch, rfl, fun _ _ => rfl⟩
  have hc : (fun c : Cond ℝ => ({ c with pitch := c.pitch + e } : Cond ℝ)) = Cond.turn (e * (Real.pi / 180)) := by
    funext c
    simp only [Cond.turn, Cond.mk.injEq, true_and]
    field_simp
  rw [hc]
  exact evaluate_twist_pitch bq ht cs co

/-- Derivatives by twist and by pitch of the loads of a section agree. -/
theorem secDerivs_theta_pitch (R : Rotor ℝ) (pitch phi : ℝ) (rot : Bool) (x : Sec ℝ) (v : SecLoads ℝ) :
    (secDerivs R pitch phi rot x v).dNp 2 = (secDerivs R pitch phi rot x v).dNp 8 ∧
    (secDerivs R pitch phi rot x v).dTp 2 = (secDerivs R pitch phi rot x v).dTp 8 ∧
    (secDerivs R pitch phi rot x v).dR 2 = (secDerivs R pitch phi rot x v).dR 8 := by
  have hr : residualDerivatives R pitch phi x 2 = residualDerivatives R pitch phi x 8 := by
    simp [residualDerivatives, kron]
  have hw : ∀ a ap, relativeWindDv ⟨phi, v.a, v.ap, x.Vx, x.Vy, pitch, x.chord, x.theta⟩ ⟨0, a, ap, 0, 0, 0, 0, 1⟩ R.rho R.mu =
      relativeWindDv ⟨phi, v.a, v.ap, x.Vx, x.Vy, pitch, x.chord, x.theta⟩ ⟨0, a, ap, 0, 0, 1, 0, 0⟩ R.rho R.mu := by
    intro a ap
    simp [relativeWindDv, relSpeedDv]
  have k : ∀ i j : ℕ, i ≠ j → kron i j = (0 : ℝ) := fun i j hij => by simp [kron, hij]
  have k1 : ∀ i : ℕ, kron i i = (1 : ℝ) := fun i => by simp [kron]
  refine ⟨?_, ?_, ?_⟩ <;> simp only [secDerivs, hr, k 0 2 (by decide), k 3 2 (by decide), k 4 2 (by decide), k 8 2 (by decide),
    k 1 2 (by decide), k1, k 0 8 (by decide), k 3 8 (by decide), k 4 8 (by decide), k 1 8 (by decide), k 2 8 (by decide), hw] <;> rfl

/-- Total derivatives by twist and by pitch of the loads of a station agree. -/
theorem station_theta_pitch {bq : RootFinder ℝ} {R : Rotor ℝ} {pitch Omega : ℝ} {V : ℕ → ℝ × ℝ} {i : ℕ} {s : Station ℝ}
    (h : solveStation bq R pitch Omega V i = .ok s) : s.dNp 1 = s.dNp 7 ∧ s.dTp 1 = s.dTp 7 := by
  obtain ⟨l, d, -, -, h3, -, h5, h6⟩ := solveStation_ok h
  have hd : d.dNp 2 = d.dNp 8 ∧ d.dTp 2 = d.dTp 8 ∧ d.dR 2 = d.dR 8 := by
    unfold secLoads at h3
    simp only at h3
    split_ifs at h3
    · simp only [Except.ok.injEq, Prod.mk.injEq] at h3
      rw [← h3.2]
      exact secDerivs_theta_pitch _ _ _ _ _ _
    · simp only [Except.ok.injEq, Prod.mk.injEq] at h3
      rw [← h3.2]
      exact ⟨rfl, rfl, rfl⟩
  rw [h5, h6]
  simp only [hd]
  exact ⟨trivial, trivial⟩

theorem loadJac_theta_pitch {bq : RootFinder ℝ} {R : Rotor ℝ} {Uinf Omega pitch az : ℝ} {L : LoadsOut ℝ}
    (h : (distributedAeroLoads bq R Uinf Omega pitch az).2 = .ok L) (az' : ℝ) (i : ℕ) :
    (loadJac R Uinf Omega az' L.stations).dNp_dX 2 i = (loadJac R Uinf Omega az' L.stations).dNp_dX 14 i ∧
    (loadJac R Uinf Omega az' L.stations).dTp_dX 2 i = (loadJac R Uinf Omega az' L.stations).dTp_dX 14 i := by
  have hD : stationD L.stations Station.dNp i 1 = stationD L.stations Station.dNp i 7 ∧
      stationD L.stations Station.dTp i 1 = stationD L.stations Station.dTp i 7 := by
    simp only [stationD]
    cases hs : L.stations[i]? with
    | none => exact ⟨rfl, rfl⟩
    | some s => exact station_theta_pitch (loads_station (Prod.ext rfl h) hs).2
  simp only [loadJac, packX, zidx]
  norm_num [hD]

/-- **C103** The reported derivatives say the same: the derivatives of the loads of a station by its twist (diagonal of `dtheta`) and
by the pitch (`dpitch`) are equal. -/
theorem loads_dtheta_dpitch {bq : RootFinder ℝ} {R : Rotor ℝ} {Uinf Omega pitch az : ℝ} {L : LoadsOut ℝ}
    (h : (distributedAeroLoads bq R Uinf Omega pitch az).2 = .ok L) (hd : R.derivatives = true) :
    ∀ dict ∈ [L.dNp, L.dTp], ∃ t p, dict.lookup "dtheta" = some t ∧ dict.lookup "dpitch" = some p ∧
      ∀ i, t.get i i = p.get i 0 := by
  have e : L.dNp = loadDict R.n (loadJac R Uinf Omega (deg2rad az) L.stations).dNp_dX
      (loadJac R Uinf Omega (deg2rad az) L.stations).dNp_dprecurve ∧
      L.dTp = loadDict R.n (loadJac R Uinf Omega (deg2rad az) L.stations).dTp_dX
      (loadJac R Uinf Omega (deg2rad az) L.stations).dTp_dprecurve := by
    unfold distributedAeroLoads at h
    simp only at h
    split at h
    · cases h
    · rw [if_pos hd] at h
      simp only [Except.ok.injEq] at h
      subst h
      exact ⟨rfl, rfl⟩
  intro dict hdict
  simp only [List.mem_cons, List.not_mem_nil, or_false] at hdict
  rcases hdict with rfl | rfl
  · rw [e.1]
    refine ⟨_, _, rfl, rfl, fun i => ?_⟩
    simpa [matDiag, matCol] using (loadJac_theta_pitch h (deg2rad az) i).1
  · rw [e.2]
    refine ⟨_, _, rfl, rfl, fun i => ?_⟩
    simpa [matDiag, matCol] using (loadJac_theta_pitch h (deg2rad az) i).2

/-- The derivative by the pitch is the sum of the derivatives by the twists. -/
def PitchSum (n : ℕ) (q : Quant ℝ) : Prop := q.ds 11 = ∑ i ∈ Finset.range n, q.dv 2 i

theorem PitchSum.map2 {n : ℕ} {x y : Quant ℝ} (hx : PitchSum n x) (hy : PitchSum n y) (f : ℝ → ℝ → ℝ) (u v : ℝ)
    (hf : ∀ a b, f a b = u * a + v * b) : PitchSum n (x.map2 f y) := by
  simp only [PitchSum, Quant.map2, hf] at *
  rw [hx, hy, Finset.sum_add_distrib, Finset.mul_sum, Finset.mul_sum]

theorem PitchSum.sum {n m : ℕ} {f : ℕ → Quant ℝ} (h : ∀ k < m, PitchSum n (f k)) : PitchSum n (Quant.sum m f) := by
  simp only [PitchSum, Quant.sum] at *
  rw [Finset.sum_comm]
  exact Finset.sum_congr rfl fun k hk => h k (Finset.mem_range.mp hk)

theorem pitchSum_blade {bq : RootFinder ℝ} {R : Rotor ℝ} {Uinf Omega pitch az : ℝ} {L : LoadsOut ℝ}
    (h : (distributedAeroLoads bq R Uinf Omega pitch az).2 = .ok L) (az' val : ℝ) (w : TTSeed ℝ) :
    PitchSum R.n (bladeQuant R (some (loadJac R Uinf Omega az' L.stations)) L val w) := by
  simp only [bladeQuant]
  cases R.derivatives with
  | false => simp [PitchSum]
  | true =>
    simp only [if_true, PitchSum, ttDeriv, real_sumTo]
    exact Finset.sum_congr rfl fun i _ => by rw [(loadJac_theta_pitch h az' i).1, (loadJac_theta_pitch h az' i).2]

/-- The derivative by the pitch is the sum of the derivatives by the twists, for each output of one condition. -/
theorem condOut_pitchSum {bq : RootFinder ℝ} {R : Rotor ℝ} {cs : List (Cond ℝ)} {co : Bool} {o : EvalOut ℝ}
    (h : (evaluate bq R cs co).2 = .ok o) {m : ℕ} {c : Cond ℝ} {x : CondOut ℝ} (hc : cs[m]? = some c)
    (hx : o.conds[m]? = some x) :
    ∀ q ∈ [x.acc.T, x.acc.Y, x.acc.Z, x.acc.Q, x.acc.My, x.acc.Mz, x.acc.Mb, x.P],
      q.ds 11 = ∑ i ∈ Finset.range R.n, q.dv 2 i := by
  obtain ⟨h1, hP, -⟩ := evaluate_entry h hc hx
  obtain ⟨L, hL, hT, hY, hZ, hQ, hMy, hMz, hMb, -⟩ := condAcc_sum h1
  have hq : PitchSum R.n x.acc.Q := by
    rw [hQ]
    exact PitchSum.sum fun k hk => (pitchSum_blade (hL k hk) _ _ _).map2 (pitchSum_blade (hL k hk) _ _ _) _
      (R.B / R.nSector) 0 (fun a b => by ring)
  intro q hmem
  simp only [List.mem_cons, List.not_mem_nil, or_false] at hmem
  rcases hmem with rfl | rfl | rfl | rfl | rfl | rfl | rfl | rfl
  · rw [hT]
    exact PitchSum.sum fun k hk => (pitchSum_blade (hL k hk) _ _ _).map2 (pitchSum_blade (hL k hk) _ _ _) _
      (R.B / R.nSector) 0 (fun a b => by ring)
  · rw [hY]
    exact PitchSum.sum fun k hk => (pitchSum_blade (hL k hk) _ _ _).map2 (pitchSum_blade (hL k hk) _ _ _) _
      (R.B * Real.cos (sectorAz R.nSector k) / R.nSector) (-(R.B * Real.sin (sectorAz R.nSector k)) / R.nSector) (fun a b => by ring)
  · rw [hZ]
    exact PitchSum.sum fun k hk => (pitchSum_blade (hL k hk) _ _ _).map2 (pitchSum_blade (hL k hk) _ _ _) _
      (R.B * Real.cos (sectorAz R.nSector k) / R.nSector) (R.B * Real.sin (sectorAz R.nSector k) / R.nSector) (fun a b => by ring)
  · exact hq
  · rw [hMy]
    exact PitchSum.sum fun k hk => (pitchSum_blade (hL k hk) _ _ _).map2 (pitchSum_blade (hL k hk) _ _ _) _
      (R.B * Real.cos (sectorAz R.nSector k) / R.nSector) 0 (fun a b => by ring)
  · rw [hMz]
    exact PitchSum.sum fun k hk => (pitchSum_blade (hL k hk) _ _ _).map2 (pitchSum_blade (hL k hk) _ _ _) _
      (R.B * Real.sin (sectorAz R.nSector k) / R.nSector) 0 (fun a b => by ring)
  · rw [hMb]
    exact PitchSum.sum fun k hk => (pitchSum_blade (hL k hk) _ _ _).map2 (pitchSum_blade (hL k hk) _ _ _) _
      (1 / R.nSector) 0 (fun a b => by ring)
  · rw [hP]
    simp only [power, num_real]
    rw [if_neg (by norm_num), hq, Finset.sum_mul, Finset.sum_mul, Finset.sum_div]

/-- **C103** The derivatives of the rotor outputs: of every force and moment and of the power the derivative by the pitch is the sum over
the stations of the derivatives by the twist. -/
theorem evaluate_dpitch_sum {bq : RootFinder ℝ} {R : Rotor ℝ} {cs : List (Cond ℝ)} {co : Bool} {o : EvalOut ℝ}
    (h : (evaluate bq R cs co).2 = .ok o) {m : ℕ} (hm : m < cs.length) (f : CondOut ℝ → Quant ℝ)
    (hf : f ∈ [fun x => x.acc.T, fun x => x.acc.Y, fun x => x.acc.Z, fun x => x.acc.Q, fun x => x.acc.My, fun x => x.acc.Mz,
      fun x => x.acc.Mb, fun x => x.P]) :
    dictAt (rotorDict R.n (o.conds.map f)) "dpitch" m m =
      ∑ i ∈ Finset.range R.n, dictAt (rotorDict R.n (o.conds.map f)) "dtheta" m i := by
  have hlen := evaluate_length h
  obtain ⟨x, hx⟩ : ∃ x, o.conds[m]? = some x := ⟨_, List.getElem?_eq_getElem (by omega)⟩
  have hq := condOut_pitchSum h (List.getElem?_eq_getElem hm) hx (f x) (by
    simp only [List.mem_cons, List.not_mem_nil, or_false] at hf
    rcases hf with rfl | rfl | rfl | rfl | rfl | rfl | rfl | rfl <;> simp)
  have e1 : dictAt (rotorDict R.n (o.conds.map f)) "dpitch" m m = (f x).ds 11 := by
    change (if m = m then (((o.conds.map f)[m]?).map fun q => q.ds 11).getD 0 else 0) = _
    rw [if_pos rfl, List.getElem?_map, hx]
    rfl
  have e2 : ∀ i, dictAt (rotorDict R.n (o.conds.map f)) "dtheta" m i = (f x).dv 2 i := by
    intro i
    change (((o.conds.map f)[m]?).map fun q => q.dv 2 i).getD 0 = _
    rw [List.getElem?_map, hx]
    rfl
  rw [e1, hq]
  exact Finset.sum_congr rfl fun i _ => (e2 i).symm

/-- Non-vacuity: the sample rotor with its twist reduced by a tenth of a radian and the pitch raised accordingly -/
example : ∃ o, (evaluate demoBq demoRotor [⟨10, 12, 0⟩] true).2 = .ok o ∧
    (evaluate demoBq { demoRotor with theta := fun i => 1 / 5 - i / 20 - 1 / 10 } [⟨10, 12, 0 + 1 / 10 * (180 / Real.pi)⟩] true).2 =
      .ok o := by
  obtain ⟨o, -, h, -⟩ := evaluate_total demoBq_onlyValueError demoRotor ⟨10, 12, 0⟩ true (by simp [demoRotor]) rfl (by norm_num)
    (by simp [demoRotor])
  have ht : Turned (1 / 10) demoRotor { demoRotor with theta := fun i => 1 / 5 - i / 20 - 1 / 10 } :=
    ⟨fun i => 1 / 5 - i / 20 - 1 / 10, demoRotor.pitch, rfl, fun _ _ => rfl⟩
  exact ⟨o, h, (evaluate_twist_pitch demoBq ht [⟨10, 12, 0⟩] true).trans h⟩

/-- Non-vacuity: a rotor with derivatives that carries load -/
example : ∃ L o s, (distributedAeroLoads plainBq tipRotor 10 12 0 0).2 = .ok L ∧ tipRotor.derivatives = true ∧
    L.stations[0]? = some s ∧ 0 < s.loads.Np ∧ (evaluate plainBq tipRotor [⟨10, 12, 0⟩] true).2 = .ok o := by
  have hs : ∀ az : ℝ, ∃ L, (distributedAeroLoads plainBq tipRotor 10 12 0 az).2 = .ok L := fun az => by
    obtain ⟨l, hl⟩ := solveStations_of_all (k := 3) fun i hi => (tipRotor_station az i hi).imp fun _ h => h.1
    obtain ⟨L, h, -⟩ := distributedAeroLoads_of_stations hl
    exact ⟨L, h⟩
  obtain ⟨L, hL⟩ := hs 0
  obtain ⟨a, ha⟩ := (condAcc_ok_iff plainBq tipRotor ⟨10, 12, 0⟩).mpr fun k _ => hs _
  obtain ⟨W, hW⟩ := Option.isSome_iff_exists.mp ((condAcc_W ha).mpr (show (1 : ℕ) ≠ 0 by norm_num))
  obtain ⟨st, h1, h2⟩ := tipRotor_station 0 0 (by norm_num)
  have hlen := (solveStations_ok (distributedAeroLoads_stations (Prod.ext rfl hL)))
  have hs0 : L.stations[0]? = some st := by
    obtain ⟨s', e⟩ : ∃ s', L.stations[0]? = some s' := ⟨_, List.getElem?_eq_getElem (by rw [hlen.1]; show 0 < 3; norm_num)⟩
    rw [e, Except.ok.inj ((loads_station (Prod.ext rfl hL) e).2.symm.trans h1)]
  exact ⟨L, ⟨_, W⟩, st, hL, rfl, hs0, h2, (evaluate_single _ _ _ _ _).mpr ⟨a, ha, hW, rfl⟩⟩

end Verif
