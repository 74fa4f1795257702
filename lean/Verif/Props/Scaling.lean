import Verif.Props.Rotor
import Verif.Props.LoadsDeriv

/-!
# Similarity: scaling density and speeds (C51)
-/

namespace Verif

open Finset

/-- The rotor in a fluid of `d` times the density. -/
def Rotor.denser (R : Rotor ℝ) (d : ℝ) : Rotor ℝ := { R with rho := d * R.rho }

/-! ## Helpers -/

/-- The same section in a wind `s` times as fast. -/
def Sec.faster (x : Sec ℝ) (s : ℝ) : Sec ℝ := { x with Vx := s * x.Vx, Vy := s * x.Vy }

theorem inductionFactors_scaled (r chord Rhub Rtip phi cl cd : ℝ) (B : ℕ) (Vx Vy s : ℝ) (hs : s ≠ 0) (o : BemOpts) :
    inductionFactors r chord Rhub Rtip phi cl cd B (s * Vx) (s * Vy) o
      = inductionFactors r chord Rhub Rtip phi cl cd B Vx Vy o := by
  simp only [inductionFactors, bemResidual, mul_div_mul_left _ _ hs]

theorem relSpeed_scaled (phi a ap Vx Vy s : ℝ) (hs : 0 < s) :
    relSpeed phi a ap (s * Vx) (s * Vy) = s * relSpeed phi a ap Vx Vy := by
  simp only [relSpeed, num_real]
  split_ifs
  · ring
  · ring
  · rw [show (s * Vx * (1 - a)) ^ 2 + (s * Vy * (1 + ap)) ^ 2 = s ^ 2 * ((Vx * (1 - a)) ^ 2 + (Vy * (1 + ap)) ^ 2) by ring,
      Real.sqrt_mul (by positivity), Real.sqrt_sq hs.le]

theorem bemPass_scaled (R : Rotor ℝ) (d s : ℝ) (hs : 0 < s) (pitch phi : ℝ) (x : Sec ℝ) (hx : x.af.ReIndependent) (a ap : ℝ) :
    bemPass (R.denser d) pitch phi (x.faster s) a ap = bemPass R pitch phi x a ap := by
  have he : (x.faster s).af.evaluate (relativeWind phi a ap (x.faster s).Vx (x.faster s).Vy pitch (x.faster s).chord
        (x.faster s).theta (R.denser d).rho (R.denser d).mu).alpha
        (relativeWind phi a ap (x.faster s).Vx (x.faster s).Vy pitch (x.faster s).chord (x.faster s).theta (R.denser d).rho
          (R.denser d).mu).Re
      = x.af.evaluate (relativeWind phi a ap x.Vx x.Vy pitch x.chord x.theta R.rho R.mu).alpha
        (relativeWind phi a ap x.Vx x.Vy pitch x.chord x.theta R.rho R.mu).Re := hx _ _ _
  simp only [bemPass, he]
  simp only [Sec.faster, Rotor.denser, inductionFactors_scaled _ _ _ _ _ _ _ _ _ _ _ hs.ne']

theorem runBEM_scaled (R : Rotor ℝ) (d s : ℝ) (hs : 0 < s) (pitch phi : ℝ) (x : Sec ℝ) (hx : x.af.ReIndependent) :
    runBEM (R.denser d) pitch phi (x.faster s) = runBEM R pitch phi x := by
  have h : ∀ k o, bemPasses (R.denser d) pitch phi (x.faster s) k o = bemPasses R pitch phi x k o := by
    intro k
    induction k with
    | zero => intro o; rfl
    | succ k ih => intro o; simp only [bemPasses, bemPass_scaled R d s hs pitch phi x hx, ih]
  simp only [runBEM, h, bemPass_scaled R d s hs pitch phi x hx]
  rfl

theorem rotorWind_scaled (R : Rotor ℝ) (d s U Omega az : ℝ) (i : ℕ) :
    rotorWind (R.denser d) (s * U) (s * Omega) az i = (s * (rotorWind R U Omega az i).1, s * (rotorWind R U Omega az i).2) := by
  simp only [rotorWind, windComponents, shearedWind, Rotor.denser, num_real]
  ext <;> simp only <;> ring

/-- The values of a section of the scaled problem. -/
structure SecLoads.Scaled (d s : ℝ) (v v' : SecLoads ℝ) : Prop where
  a : v'.a = v.a
  ap : v'.ap = v.ap
  Np : v'.Np = d * s ^ 2 * v.Np
  Tp : v'.Tp = d * s ^ 2 * v.Tp
  alpha : v'.alpha = v.alpha
  cl : v'.cl = v.cl
  cd : v'.cd = v.cd
  cn : v'.cn = v.cn
  ct : v'.ct = v.ct
  q : v'.q = d * s ^ 2 * v.q
  W : v'.W = s * v.W
  Re : v'.Re = d * s * v.Re

theorem secValues_scaled (R : Rotor ℝ) (d s : ℝ) (hs : 0 < s) (pitch phi : ℝ) (rot : Bool) (x : Sec ℝ) (hx : x.af.ReIndependent) :
    SecLoads.Scaled d s (secValues R pitch phi rot x) (secValues (R.denser d) pitch phi rot (x.faster s)) := by
  have he : ∀ al Re, (x.faster s).af.evaluate al Re = x.af.evaluate al 0 := fun _ _ => hx _ _ _
  have he' : ∀ a ap, x.af.evaluate (relativeWind phi a ap x.Vx x.Vy pitch x.chord x.theta R.rho R.mu).alpha
        (relativeWind phi a ap x.Vx x.Vy pitch x.chord x.theta R.rho R.mu).Re
      = x.af.evaluate (relativeWind phi a ap x.Vx x.Vy pitch x.chord x.theta R.rho R.mu).alpha 0 := fun _ _ => hx _ _ _
  have hW : ∀ a ap, (relativeWind phi a ap (x.faster s).Vx (x.faster s).Vy pitch (x.faster s).chord
        (x.faster s).theta (R.denser d).rho (R.denser d).mu).W
      = s * (relativeWind phi a ap x.Vx x.Vy pitch x.chord x.theta R.rho R.mu).W := fun a ap => relSpeed_scaled _ _ _ _ _ _ hs
  have hRe : ∀ a ap, (relativeWind phi a ap (x.faster s).Vx (x.faster s).Vy pitch (x.faster s).chord
        (x.faster s).theta (R.denser d).rho (R.denser d).mu).Re
      = d * s * (relativeWind phi a ap x.Vx x.Vy pitch x.chord x.theta R.rho R.mu).Re := fun a ap => by
    simp only [relativeWind, Sec.faster, Rotor.denser, relSpeed_scaled _ _ _ _ _ _ hs]
    ring
  have ha : ∀ a ap, (relativeWind phi a ap (x.faster s).Vx (x.faster s).Vy pitch (x.faster s).chord
        (x.faster s).theta (R.denser d).rho (R.denser d).mu).alpha
      = (relativeWind phi a ap x.Vx x.Vy pitch x.chord x.theta R.rho R.mu).alpha := fun a ap => rfl
  have hrho : (R.denser d).rho = d * R.rho := rfl
  have hch : (x.faster s).chord = x.chord := rfl
  cases rot <;> constructor <;> simp only [secValues, Bool.false_eq_true, if_true, if_false, runBEM_scaled R d s hs pitch phi x hx, he, he', hW, hRe, ha] <;>
    (try simp only [hrho, hch, num_real]) <;> ring

theorem secLoads_scaled {R : Rotor ℝ} {d s : ℝ} (hs : 0 < s) {pitch phi : ℝ} {rot : Bool} {x : Sec ℝ}
    (hx : x.af.ReIndependent) {v : SecLoads ℝ × SecDerivs ℝ} (h : secLoads R pitch phi rot x = .ok v) :
    ∃ v', secLoads (R.denser d) pitch phi rot (x.faster s) = .ok v' ∧ SecLoads.Scaled d s v.1 v'.1 := by
  have hv := secValues_scaled R d s hs pitch phi rot x hx
  have hz : ∀ y : ℝ, (s * y == 0) = (y == 0) := by
    intro y
    simp [num_real, hs.ne']
  unfold secLoads at h ⊢
  simp only [show (x.faster s).Vx = s * x.Vx from rfl, show (x.faster s).Vy = s * x.Vy from rfl, hz,
    show (x.faster s).chord = x.chord from rfl, hv.cn, hv.W, show (R.denser d).derivatives = R.derivatives from rfl]
  by_cases h1 : (!(x.Vx == 0) && !(x.Vy == 0)) = true
  · rw [if_pos h1] at h ⊢
    by_cases h2 : (R.derivatives && ((secValues R pitch phi rot x).cn == 0 || (secValues R pitch phi rot x).W == 0
        || x.chord == 0)) = true
    · simp [h2] at h
    · simp only [h2, Bool.false_eq_true, if_false, Except.ok.injEq] at h ⊢
      exact ⟨_, rfl, by rw [← h]; exact hv⟩
  · rw [if_neg h1] at h ⊢
    simp only [Except.ok.injEq] at h
    refine ⟨_, rfl, ?_⟩
    rw [← h]
    constructor <;> simp

theorem solveStation_scaled {bq : RootFinder ℝ} {R : Rotor ℝ} {d s : ℝ} (hs : 0 < s) {pitch Omega : ℝ} {V V' : ℕ → ℝ × ℝ} {i : ℕ}
    (hV : V' i = (s * (V i).1, s * (V i).2)) (hx : (R.af i).ReIndependent) {st : Station ℝ}
    (h : solveStation bq R pitch Omega V i = .ok st) :
    ∃ st', solveStation bq (R.denser d) pitch (s * Omega) V' i = .ok st' ∧ st'.phi = st.phi ∧ st'.warned = st.warned ∧
      st'.theta = st.theta ∧ SecLoads.Scaled d s st.loads st'.loads := by
  have hz : (s * Omega == 0) = (Omega == 0) := by simp [num_real, hs.ne']
  have hsec : ∀ th, stationSec (R.denser d) V' i th = (stationSec R V i th).faster s := by
    intro th
    simp only [stationSec, hV]
    rfl
  have herr : stationErrf (R.denser d) pitch V' i = stationErrf R pitch V i := by
    unfold stationErrf
    rw [show (R.denser d).inv = R.inv from rfl, show (R.denser d).theta = R.theta from rfl, hsec]
    cases R.inv with
    | none =>
      funext phi
      simp only [errFun, runBEM_scaled R d s hs pitch phi (stationSec R V i (R.theta i)) hx]
    | some D =>
      funext phi
      simp only [errFunInv, Sec.faster, Rotor.denser, inductionFactors_scaled _ _ _ _ _ _ _ _ _ _ _ hs.ne']
  have hphi : stationPhi bq (R.denser d) pitch (s * Omega) V' i = stationPhi bq R pitch Omega V i := by
    unfold stationPhi
    rw [hz, herr]
    rfl
  have hth : ∀ phi, stationTheta (R.denser d) pitch phi i = stationTheta R pitch phi i := fun _ => rfl
  unfold solveStation at h ⊢
  rw [hphi]
  cases h1 : stationPhi bq R pitch Omega V i with
  | error e => simp [h1] at h
  | ok pw =>
    obtain ⟨phi, w⟩ := pw
    simp only [h1, hth, hsec, hz] at h ⊢
    cases h2 : secLoads R pitch phi (!Omega == 0) (stationSec R V i (stationTheta R pitch phi i)) with
    | error e => simp [h2] at h
    | ok v =>
      obtain ⟨v', e1, e2⟩ := secLoads_scaled (d := d) hs (x := stationSec R V i (stationTheta R pitch phi i)) hx h2
      simp only [h2, e1, real_isNaN, Bool.false_and, Bool.false_eq_true, if_false, Except.ok.injEq] at h ⊢
      exact ⟨_, rfl, by rw [← h], by rw [← h], by rw [← h], by rw [← h]; exact e2⟩

/-! ## C51 -/

/-- **C51** Loads under scaling: when the airfoil data do not depend on the Reynolds number, a fluid `d` times as dense, with
wind and rotational speeds `s` times as fast, gives the same inflow angles, induction factors and coefficients at every
station, and `d s²` times the loads. -/
theorem loads_similarity (bq : RootFinder ℝ) (R : Rotor ℝ) (haf : ∀ i < R.n, (R.af i).ReIndependent) (d s : ℝ) (hs : 0 < s)
    (U Omega pitch az : ℝ) (L : LoadsOut ℝ) (h : (distributedAeroLoads bq R U Omega pitch az).2 = .ok L) :
    ∃ L', (distributedAeroLoads bq (R.denser d) (s * U) (s * Omega) pitch az).2 = .ok L' ∧
      L'.stations.length = L.stations.length ∧
      ∀ (i : ℕ) (st : Station ℝ), L.stations[i]? = some st → ∃ st' : Station ℝ, L'.stations[i]? = some st' ∧
        st'.phi = st.phi ∧ st'.loads.a = st.loads.a ∧ st'.loads.ap = st.loads.ap ∧ st'.loads.alpha = st.loads.alpha ∧
        st'.loads.cl = st.loads.cl ∧ st'.loads.cd = st.loads.cd ∧ st'.loads.W = s * st.loads.W ∧
        st'.loads.Np = d * s ^ 2 * st.loads.Np ∧ st'.loads.Tp = d * s ^ 2 * st.loads.Tp := by
  have h1 := distributedAeroLoads_stations (Prod.ext rfl h)
  obtain ⟨hlen, hst⟩ := solveStations_ok h1
  have hall : ∀ i < R.n, ∃ st', solveStation bq (R.denser d) (deg2rad pitch) (s * Omega)
      (rotorWind (R.denser d) (s * U) (s * Omega) (deg2rad az)) i = .ok st' := by
    intro i hi
    obtain ⟨st, -, e2⟩ := hst i hi
    obtain ⟨st', e3, -⟩ := solveStation_scaled (d := d) hs (rotorWind_scaled R d s U Omega (deg2rad az) i) (haf i hi) e2
    exact ⟨st', e3⟩
  obtain ⟨l', hl'⟩ := solveStations_of_all hall
  obtain ⟨L', hL', hs'⟩ := distributedAeroLoads_of_stations (R := R.denser d) (Uinf := s * U) (az := az) hl'
  obtain ⟨hlen', hst'⟩ := solveStations_ok hl'
  refine ⟨L', hL', by rw [hs', hlen, hlen'], fun i st hi => ?_⟩
  have hin : i < R.n := by
    rw [← hlen]
    exact (List.getElem?_eq_some_iff.mp hi).1
  obtain ⟨st1, e1, e2⟩ := hst i hin
  obtain rfl : st1 = st := Option.some.inj (e1.symm.trans hi)
  obtain ⟨st', e3, e4⟩ := hst' i hin
  obtain ⟨st2, e5, p1, -, -, p2⟩ := solveStation_scaled (d := d) hs (rotorWind_scaled R d s U Omega (deg2rad az) i) (haf i hin) e2
  obtain rfl : st2 = st' := Except.ok.inj (e5.symm.trans e4)
  exact ⟨st2, by rw [hs']; exact e3, p1, p2.a, p2.ap, p2.alpha, p2.cl, p2.cd, p2.W, p2.Np, p2.Tp⟩

/-- The blade integrals are linear in the loads. -/
theorem thrustTorque_smul (n : ℕ) (c : ℝ) (Np Tp r pc ps : ℕ → ℝ) (p Rhub Rtip pcT psT : ℝ) :
    let t := thrustTorque n Np Tp r pc ps p Rhub Rtip pcT psT
    thrustTorque n (fun i => c * Np i) (fun i => c * Tp i) r pc ps p Rhub Rtip pcT psT
      = ⟨c * t.T, c * t.Y, c * t.Z, c * t.Q, c * t.M⟩ := by
  have hp : ∀ (f : ℕ → ℝ) i, padded n 0 (fun j => c * f j) 0 i = c * padded n 0 f 0 i := by
    intro f i
    unfold padded
    split_ifs <;> ring
  simp only [thrustTorque, trapz, num_real, hp, mul_sum]
  congr 1 <;> exact sum_congr rfl fun i _ => by ring

theorem rotor_similarity_cond (bq : RootFinder ℝ) (R : Rotor ℝ) (haf : ∀ i < R.n, (R.af i).ReIndependent) (d s : ℝ)
    (hs : 0 < s) (U Omega pitch : ℝ) (L L' : LoadsOut ℝ) (az : ℝ) (h : (distributedAeroLoads bq R U Omega pitch az).2 = .ok L)
    (h' : (distributedAeroLoads bq (R.denser d) (s * U) (s * Omega) pitch az).2 = .ok L') :
    bladeInt (R.denser d) L' = ⟨d * s ^ 2 * (bladeInt R L).T, d * s ^ 2 * (bladeInt R L).Y, d * s ^ 2 * (bladeInt R L).Z,
      d * s ^ 2 * (bladeInt R L).Q, d * s ^ 2 * (bladeInt R L).M⟩ ∧
    ∀ i, stationArr L'.stations SecLoads.W i = s * stationArr L.stations SecLoads.W i := by
  obtain ⟨L1, e1, hlen, hst⟩ := loads_similarity bq R haf d s hs U Omega pitch az L h
  obtain rfl : L1 = L' := Except.ok.inj (e1.symm.trans h')
  have harr : ∀ (f : SecLoads ℝ → ℝ) (c : ℝ), (∀ (i : ℕ) (st st' : Station ℝ), L.stations[i]? = some st → L1.stations[i]? = some st' → f st'.loads = c * f st.loads) →
      ∀ i, stationArr L1.stations f i = c * stationArr L.stations f i := by
    intro f c hf i
    unfold stationArr
    cases h1 : L.stations[i]? with
    | none =>
      have : L1.stations[i]? = none := by
        rw [List.getElem?_eq_none_iff] at h1 ⊢
        omega
      simp [this]
    | some st =>
      obtain ⟨st', k1, -⟩ := hst i st h1
      rw [k1]
      simpa using hf i st st' h1 k1
  have hex : ∀ (i : ℕ) (st st' : Station ℝ), L.stations[i]? = some st → L1.stations[i]? = some st' → st'.loads.W = s * st.loads.W ∧
      st'.loads.Np = d * s ^ 2 * st.loads.Np ∧ st'.loads.Tp = d * s ^ 2 * st.loads.Tp := by
    intro i st st' k1 k2
    obtain ⟨st2, k3, -, -, -, -, -, -, k4, k5, k6⟩ := hst i st k1
    obtain rfl : st2 = st' := Option.some.inj (k3.symm.trans k2)
    exact ⟨k4, k5, k6⟩
  refine ⟨?_, harr _ _ fun i st st' k1 k2 => (hex i st st' k1 k2).1⟩
  have hNp := harr SecLoads.Np (d * s ^ 2) fun i st st' k1 k2 => (hex i st st' k1 k2).2.1
  have hTp := harr SecLoads.Tp (d * s ^ 2) fun i st st' k1 k2 => (hex i st st' k1 k2).2.2
  unfold bladeInt
  rw [funext hNp, funext hTp]
  exact thrustTorque_smul _ _ _ _ _ _ _ _ _ _ _ _

/-- **C51** Rotor outputs under scaling: a fluid `d` times as dense, with all wind and rotational speeds `s` times as fast,
gives `d s²` times the forces and moments, `d s³` times the power, and the same coefficients. -/
theorem rotor_similarity (bq : RootFinder ℝ) (R : Rotor ℝ) (haf : ∀ i < R.n, (R.af i).ReIndependent) (d s : ℝ)
    (hd : 0 < d) (hs : 0 < s) (cs : List (Cond ℝ)) (o : EvalOut ℝ) (h : (evaluate bq R cs true).2 = .ok o) :
    ∃ o', (evaluate bq (R.denser d) (cs.map fun c => ⟨s * c.Uinf, s * c.Omega, c.pitch⟩) true).2 = .ok o' ∧
      o'.conds.length = o.conds.length ∧ ∀ (m : ℕ) (x : CondOut ℝ), o.conds[m]? = some x → ∃ x' : CondOut ℝ, o'.conds[m]? = some x' ∧
        x'.acc.T.val = d * s ^ 2 * x.acc.T.val ∧ x'.acc.Y.val = d * s ^ 2 * x.acc.Y.val ∧
        x'.acc.Z.val = d * s ^ 2 * x.acc.Z.val ∧ x'.acc.Q.val = d * s ^ 2 * x.acc.Q.val ∧
        x'.acc.My.val = d * s ^ 2 * x.acc.My.val ∧ x'.acc.Mz.val = d * s ^ 2 * x.acc.Mz.val ∧
        x'.acc.Mb.val = d * s ^ 2 * x.acc.Mb.val ∧ x'.P.val = d * s ^ 3 * x.P.val ∧
        ∃ C C', x.C = some C ∧ x'.C = some C' ∧ C'.CP.val = C.CP.val ∧ C'.CT.val = C.CT.val ∧ C'.CY.val = C.CY.val ∧
          C'.CZ.val = C.CZ.val ∧ C'.CQ.val = C.CQ.val ∧ C'.CMy.val = C.CMy.val ∧ C'.CMz.val = C.CMz.val ∧
          C'.CMb.val = C.CMb.val := by
  set sc : Cond ℝ → Cond ℝ := fun c => ⟨s * c.Uinf, s * c.Omega, c.pitch⟩ with hsc
  have hns : (R.denser d).nSector = R.nSector := rfl
  have hne : cs ≠ [] := by
    rintro rfl
    simp [evaluate, condLoop] at h
  have hex : ∃ o', (evaluate bq (R.denser d) (cs.map sc) true).2 = .ok o' := by
    refine evaluate_conditions_ok _ _ _ _ (by simpa using hne) fun c' hc' => ?_
    obtain ⟨c, hc, rfl⟩ := List.mem_map.mp hc'
    obtain ⟨m, hm, rfl⟩ := List.getElem_of_mem hc
    have hm' : m < o.conds.length := by rw [evaluate_length h]; exact hm
    obtain ⟨h1, -⟩ := evaluate_entry h (List.getElem?_eq_getElem hm) (List.getElem?_eq_getElem hm')
    have hk := (condAcc_ok_iff bq R cs[m]).mp ⟨_, h1⟩
    obtain ⟨acc, hacc⟩ := (condAcc_ok_iff bq (R.denser d) (sc cs[m])).mpr fun k hk' => by
      obtain ⟨L, hL⟩ := hk k hk'
      obtain ⟨L', hL', -⟩ := loads_similarity bq R haf d s hs _ _ _ _ L hL
      exact ⟨L', hL'⟩
    have hW : acc.W.isSome := (condAcc_W hacc).mpr (by
      have : ∃ W, o.conds[m].acc.W = some W := by
        have hf := evaluate_conditions bq R cs true o h
        obtain ⟨o1, g1, g2⟩ := (List.forall₂_iff_get.mp hf).2 m hm hm'
        obtain ⟨a, g3, g4, g5⟩ := (evaluate_single bq R _ true o1).mp g1
        rw [g2] at g5
        simp only [List.cons.injEq, and_true] at g5
        exact ⟨_, by rw [show o.conds[m] = _ from g5]; exact g4⟩
      obtain ⟨W, hW⟩ := this
      exact (condAcc_W h1).mp (by simp [hW]))
    obtain ⟨W, hW⟩ := Option.isSome_iff_exists.mp hW
    exact ⟨⟨_, W⟩, (evaluate_single _ _ _ _ _).mpr ⟨acc, hacc, hW, rfl⟩⟩
  obtain ⟨o', ho'⟩ := hex
  refine ⟨o', ho', by rw [evaluate_length ho', evaluate_length h, List.length_map], fun m x hx => ?_⟩
  have hm : m < cs.length := by
    rw [← evaluate_length h]
    exact (List.getElem?_eq_some_iff.mp hx).1
  have hm' : m < o'.conds.length := by rw [evaluate_length ho', List.length_map]; exact hm
  have hx' : o'.conds[m]? = some o'.conds[m] := List.getElem?_eq_getElem hm'
  have hc : cs[m]? = some cs[m] := List.getElem?_eq_getElem hm
  have hc' : (cs.map sc)[m]? = some (sc cs[m]) := by rw [List.getElem?_map, hc]; rfl
  generalize o'.conds[m] = x' at hx'
  refine ⟨x', hx', ?_⟩
  generalize cs[m] = c at hc hc'
  obtain ⟨L, hL, hT, hQ, hMb, hY, hZ, hMy, hMz, -⟩ := sector_averages h hc hx
  obtain ⟨L', hL', hT', hQ', hMb', hY', hZ', hMy', hMz', -⟩ := sector_averages ho' hc' hx'
  have hI : ∀ k < R.nSector, _ := fun k hk =>
    (rotor_similarity_cond bq R haf d s hs c.Uinf c.Omega c.pitch (L k) (L' k) _ (hL k hk) (hL' k hk)).1
  have hmean : ∀ f : ℕ → TTOut ℝ → ℝ, (∀ k, ∀ I : TTOut ℝ, f k ⟨d * s ^ 2 * I.T, d * s ^ 2 * I.Y, d * s ^ 2 * I.Z, d * s ^ 2 * I.Q,
        d * s ^ 2 * I.M⟩ = d * s ^ 2 * f k I) →
      (∑ k ∈ range R.nSector, f k (bladeInt (R.denser d) (L' k))) / R.nSector
        = d * s ^ 2 * ((∑ k ∈ range R.nSector, f k (bladeInt R (L k))) / R.nSector) := by
    intro f hf
    rw [← mul_div_assoc, mul_sum]
    congr 1
    refine sum_congr rfl fun k hk => ?_
    rw [hI k (mem_range.mp hk), hf]
  have eT : x'.acc.T.val = d * s ^ 2 * x.acc.T.val := by
    rw [hT, hT']; have := hmean (fun _ I => I.T) (fun _ _ => rfl)
    simp only [hns] at *; rw [this]; simp only [Rotor.denser]; ring
  have eQ : x'.acc.Q.val = d * s ^ 2 * x.acc.Q.val := by
    rw [hQ, hQ']; have := hmean (fun _ I => I.Q) (fun _ _ => rfl)
    simp only [hns] at *; rw [this]; simp only [Rotor.denser]; ring
  have eMb : x'.acc.Mb.val = d * s ^ 2 * x.acc.Mb.val := by
    rw [hMb, hMb']; have := hmean (fun _ I => I.M) (fun _ _ => rfl)
    simp only [hns] at *; rw [this]
  have eY : x'.acc.Y.val = d * s ^ 2 * x.acc.Y.val := by
    rw [hY, hY']
    have := hmean (fun k I => Real.cos (2 * Real.pi * k / R.nSector) * I.Y - Real.sin (2 * Real.pi * k / R.nSector) * I.Z)
      (fun _ _ => by ring)
    simp only [hns] at *; rw [this]; simp only [Rotor.denser]; ring
  have eZ : x'.acc.Z.val = d * s ^ 2 * x.acc.Z.val := by
    rw [hZ, hZ']
    have := hmean (fun k I => Real.sin (2 * Real.pi * k / R.nSector) * I.Y + Real.cos (2 * Real.pi * k / R.nSector) * I.Z)
      (fun _ _ => by ring)
    simp only [hns] at *; rw [this]; simp only [Rotor.denser]; ring
  have eMy : x'.acc.My.val = d * s ^ 2 * x.acc.My.val := by
    rw [hMy, hMy']
    have := hmean (fun k I => Real.cos (2 * Real.pi * k / R.nSector) * I.M) (fun _ _ => by ring)
    simp only [hns] at *; rw [this]; simp only [Rotor.denser]; ring
  have eMz : x'.acc.Mz.val = d * s ^ 2 * x.acc.Mz.val := by
    rw [hMz, hMz']
    have := hmean (fun k I => Real.sin (2 * Real.pi * k / R.nSector) * I.M) (fun _ _ => by ring)
    simp only [hns] at *; rw [this]; simp only [Rotor.denser]; ring
  obtain ⟨hP, C, hC, c1, c2, c3, c4, c5, c6, c7, c8⟩ := power_coefficients h hc hx
  obtain ⟨hP', C', hC', c1', c2', c3', c4', c5', c6', c7', c8'⟩ := power_coefficients ho' hc' hx'
  have eP : x'.P.val = d * s ^ 3 * x.P.val := by
    rw [hP, hP', eQ]; simp only [hsc]; ring
  have hR : (R.denser d).rho = d * R.rho := rfl
  have hr : (R.denser d).rotorR = R.rotorR := rfl
  have hU : (sc c).Uinf = s * c.Uinf := rfl
  have h2 : d * s ^ 2 ≠ 0 := by positivity
  have h3 : d * s ^ 3 ≠ 0 := by positivity
  refine ⟨eT, eY, eZ, eQ, eMy, eMz, eMb, eP, C, C', hC, hC', ?_, ?_, ?_, ?_, ?_, ?_, ?_, ?_⟩
  · rw [c1, c1', eP, hR, hr, hU, ← mul_div_mul_left (x.P.val) _ h3]; congr 1; ring
  · rw [c2, c2', eT, hR, hr, hU, ← mul_div_mul_left (x.acc.T.val) _ h2]; congr 1; ring
  · rw [c3, c3', eY, hR, hr, hU, ← mul_div_mul_left (x.acc.Y.val) _ h2]; congr 1; ring
  · rw [c4, c4', eZ, hR, hr, hU, ← mul_div_mul_left (x.acc.Z.val) _ h2]; congr 1; ring
  · rw [c5, c5', eQ, hR, hr, hU, ← mul_div_mul_left (x.acc.Q.val) _ h2]; congr 1; ring
  · rw [c6, c6', eMy, hR, hr, hU, ← mul_div_mul_left (x.acc.My.val) _ h2]; congr 1; ring
  · rw [c7, c7', eMz, hR, hr, hU, ← mul_div_mul_left (x.acc.Mz.val) _ h2]; congr 1; ring
  · rw [c8, c8', eMb, hR, hr, hU, ← mul_div_mul_left (x.acc.Mb.val) _ h2]; congr 1; ring

example : ∃ o o', (evaluate plainBq (plainRotor.withSectors 1) [⟨10, 12, 0⟩] true).2 = .ok o ∧
    (evaluate plainBq ((plainRotor.withSectors 1).denser 2) [⟨3 * 10, 3 * 12, 0⟩] true).2 = .ok o' := by
  obtain ⟨o, ho⟩ := plainRotor_evaluate 1 le_rfl
  obtain ⟨o', ho', -⟩ := rotor_similarity plainBq _ (fun _ _ _ _ _ => rfl) 2 3 (by norm_num) (by norm_num) _ o ho
  exact ⟨o, o', ho, ho'⟩

end Verif
