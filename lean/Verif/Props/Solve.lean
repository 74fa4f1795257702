import Verif.Lemmas.CCBlade
import Verif.Lemmas.Demo
import Mathlib.Topology.Order.IntermediateValue
import Mathlib.Topology.Instances.Real.Lemmas
import Mathlib.Analysis.Real.Pi.Bounds

/-!
# Control flow of the station solve (C30, C31, C35, C37)

The theorems of this file that mention an arbitrary scalar type hold for IEEE doubles as well as for reals.
-/

namespace Verif

variable {α : Type} [Num α]

/-! ## Specification -/

/-- The three intervals searched for the inflow angle. -/
def SearchInterval (b : α × α) : Prop :=
  b = (Num.nat 1 / Num.nat 1000000, Num.pi / Num.nat 2) ∨
  b = (-Num.pi / Num.nat 4, -(Num.nat 1 / Num.nat 1000000)) ∨
  b = (Num.pi / Num.nat 2, Num.pi - Num.nat 1 / Num.nat 1000000)

/-- The residual of station `i` handed to the root finder. -/
def stationResidual (R : Rotor α) (Uinf Omega pitch az : α) (i : ℕ) : α → α :=
  let V := rotorWind R Uinf Omega (deg2rad az) i
  let x := fun theta => (⟨R.r i, R.chord i, theta, R.af i, V.1, V.2⟩ : Sec α)
  match R.inv with
  | some d => errFunInv R (x (R.theta i)) (d.cl i) (d.cd i)
  | none => errFun R (deg2rad pitch) (x (R.theta i))

/-- The angle of the station is what the root finder returned for one of the intervals, or zero with a warning when the
root finder rejected the interval. -/
def AngleFound (bq : RootFinder α) (f : α → α) (s : Station α) : Prop :=
  ∃ b, SearchInterval b ∧
    ((bq f b.1 b.2 = .ok s.phi ∧ s.warned = false) ∨
     (bq f b.1 b.2 = .error .valueError ∧ s.phi = 0 ∧ s.warned = true))

/-- The only exception of the root finder is `ValueError`. -/
def OnlyValueError (bq : RootFinder α) : Prop := ∀ f a b e, bq f a b = .error e → e = .valueError

/-! ## Helpers -/

theorem bracket_searchInterval (f : α → α) : SearchInterval (bracket f) := by
  unfold bracket SearchInterval bemEps
  split_ifs
  · exact Or.inr (Or.inl rfl)
  · exact Or.inr (Or.inr rfl)
  · exact Or.inl rfl

theorem solvePhi_found {bq : RootFinder α} (hbq : OnlyValueError bq) (f : α → α) :
    ∃ phi w, solvePhi bq f = .ok (phi, w) ∧
      ((bq f (bracket f).1 (bracket f).2 = .ok phi ∧ w = false) ∨
       (bq f (bracket f).1 (bracket f).2 = .error .valueError ∧ phi = 0 ∧ w = true)) := by
  unfold solvePhi
  simp only
  cases h : bq f (bracket f).1 (bracket f).2 with
  | ok phi => exact ⟨phi, false, rfl, Or.inl ⟨rfl, rfl⟩⟩
  | error e =>
    rw [hbq _ _ _ _ h]
    exact ⟨0, true, rfl, Or.inr ⟨rfl, rfl, rfl⟩⟩

theorem secLoads_noDeriv (R : Rotor α) (hd : R.derivatives = false) (pitch phi : α) (rot : Bool) (x : Sec α) :
    ∃ l, secLoads R pitch phi rot x = .ok l := by
  unfold secLoads
  simp only [hd, Bool.false_and, Bool.false_eq_true, if_false]
  split_ifs <;> exact ⟨_, rfl⟩

theorem secLoads_error {R : Rotor α} {pitch phi : α} {rot : Bool} {x : Sec α} {e : PyErr}
    (h : secLoads R pitch phi rot x = .error e) : e = .valueError ∧ R.derivatives = true := by
  unfold secLoads at h
  simp only at h
  split_ifs at h with h1 h2
  simp only [Except.error.injEq] at h
  exact ⟨h.symm, (Bool.and_eq_true_iff.mp h2).1⟩

/-! ## C30 -/

/-- What a successful solve of a station did. -/
theorem solveStation_ok {bq : RootFinder α} {R : Rotor α} {pitch Omega : α} {V : ℕ → α × α} {i : ℕ} {s : Station α}
    (h : solveStation bq R pitch Omega V i = .ok s) :
    ∃ l d, stationPhi bq R pitch Omega V i = .ok (s.phi, s.warned) ∧ s.theta = stationTheta R pitch s.phi i ∧
      secLoads R pitch s.phi (!(Omega == 0)) (stationSec R V i s.theta) = .ok (l, d) ∧
      s.loads = (if Num.isNaN l.Np then { l with a := 0, ap := 0, Np := 0, Tp := 0, alpha := 0 } else l) ∧
      (s.dNp = fun j => d.dNp (j + 1) - d.dNp 0 / d.dR 0 * d.dR (j + 1)) ∧
      (s.dTp = fun j => d.dTp (j + 1) - d.dTp 0 / d.dR 0 * d.dR (j + 1)) := by
  unfold solveStation at h
  split at h
  · exact absurd h (by simp)
  · rename_i phi w h1
    simp only at h
    split at h
    · exact absurd h (by simp)
    · rename_i l d h2
      split_ifs at h with hn
      all_goals
        simp only [Except.ok.injEq] at h
        subst h
        exact ⟨l, d, h1, rfl, h2, by simp_all, rfl, rfl⟩

/-- **C30** A rotating rotor: whatever the airfoils return (NaN included), the call returns loads at all stations, and
the inflow angle of every station comes from the root finder on one of the three search intervals, or is zero with a
warning. -/
theorem distributedAeroLoads_finds (bq : RootFinder α) (hbq : OnlyValueError bq) (R : Rotor α)
    (Uinf Omega pitch az : α) (hiter : R.iterRe ≠ 0) (hd : R.derivatives = false) (hrot : (Omega == 0) = false) :
    ∃ L, (distributedAeroLoads bq R Uinf Omega pitch az).2 = .ok L ∧ L.stations.length = R.n ∧
      ∀ i < R.n, ∃ s, L.stations[i]? = some s ∧ AngleFound bq (stationResidual R Uinf Omega pitch az i) s := by
  have key : ∀ i, ∃ s, solveStation bq R (deg2rad pitch) Omega (rotorWind R Uinf Omega (deg2rad az)) i = .ok s ∧
      AngleFound bq (stationResidual R Uinf Omega pitch az i) s := by
    intro i
    obtain ⟨phi, w, h1, h2⟩ := solvePhi_found hbq (stationResidual R Uinf Omega pitch az i)
    have h3 : stationPhi bq R (deg2rad pitch) Omega (rotorWind R Uinf Omega (deg2rad az)) i = .ok (phi, w) := by
      unfold stationPhi
      rw [hrot, if_neg (by simp), if_neg hiter]
      exact h1
    obtain ⟨l, hl⟩ := secLoads_noDeriv R hd (deg2rad pitch) phi true
      (stationSec R (rotorWind R Uinf Omega (deg2rad az)) i (stationTheta R (deg2rad pitch) phi i))
    unfold solveStation
    simp only [h3, hrot, Bool.not_false, hl, Bool.and_false, Bool.false_eq_true, if_false]
    exact ⟨_, rfl, _, bracket_searchInterval _, h2⟩
  obtain ⟨l, hl⟩ := solveStations_of_all (k := R.n) fun i _ => (key i).imp fun _ h => h.1
  obtain ⟨L, h1, h2⟩ := distributedAeroLoads_of_stations hl
  obtain ⟨h3, h4⟩ := solveStations_ok hl
  refine ⟨L, h1, by rw [h2]; exact h3, fun i hi => ?_⟩
  obtain ⟨s, e1, e2⟩ := h4 i hi
  obtain ⟨s', e3, e4⟩ := key i
  rw [e2, Except.ok.injEq] at e3
  subst e3
  exact ⟨s, by rw [h2]; exact e1, e4⟩

theorem demoBq_onlyValueError : OnlyValueError demoBq := by
  intro f a b e h
  unfold demoBq at h
  split_ifs at h
  simpa using h.symm

example : ∃ L, (distributedAeroLoads demoBq demoRotor 10 12 0 0).2 = .ok L ∧ L.stations.length = 3 ∧
    ∀ i < 3, ∃ s, L.stations[i]? = some s ∧ AngleFound demoBq (stationResidual demoRotor 10 12 0 0 i) s :=
  distributedAeroLoads_finds demoBq demoBq_onlyValueError demoRotor 10 12 0 0 (by simp [demoRotor]) rfl
    (by simp)

/-- **C30** A rotor at standstill whose loads are numbers: inflow angle 90 degrees at all stations, the root finder is not
called. -/
theorem distributedAeroLoads_standstill (bq : RootFinder α) (R : Rotor α) (Uinf Omega pitch az : α)
    (hd : R.derivatives = false) (hrot : (Omega == 0) = true) (hnan : ∀ x : α, Num.isNaN x = false) :
    ∃ L, (distributedAeroLoads bq R Uinf Omega pitch az).2 = .ok L ∧ L.stations.length = R.n ∧
      ∀ i < R.n, ∃ s, L.stations[i]? = some s ∧ s.phi = Num.pi / Num.nat 2 ∧ s.warned = false := by
  have key : ∀ i, ∃ s, solveStation bq R (deg2rad pitch) Omega (rotorWind R Uinf Omega (deg2rad az)) i = .ok s ∧
      s.phi = Num.pi / Num.nat 2 ∧ s.warned = false := by
    intro i
    obtain ⟨l, hl⟩ := secLoads_noDeriv R hd (deg2rad pitch) (Num.pi / Num.nat 2) false
      (stationSec R (rotorWind R Uinf Omega (deg2rad az)) i
        (stationTheta R (deg2rad pitch) (Num.pi / Num.nat 2) i))
    unfold solveStation stationPhi
    simp only [hrot, if_true, hl, hnan, Bool.false_and, Bool.false_eq_true, if_false, Bool.not_true]
    exact ⟨_, rfl, rfl, rfl⟩
  obtain ⟨l, hl⟩ := solveStations_of_all (k := R.n) fun i _ => (key i).imp fun _ h => h.1
  obtain ⟨L, h1, h2⟩ := distributedAeroLoads_of_stations hl
  obtain ⟨h3, h4⟩ := solveStations_ok hl
  refine ⟨L, h1, by rw [h2]; exact h3, fun i hi => ?_⟩
  obtain ⟨s, e1, e2⟩ := h4 i hi
  obtain ⟨s', e3, e4⟩ := key i
  rw [e2, Except.ok.injEq] at e3
  subst e3
  exact ⟨s, by rw [h2]; exact e1, e4⟩

example : ∃ L, (distributedAeroLoads demoBq demoRotor 10 0 0 0).2 = .ok L ∧ L.stations.length = 3 ∧
    ∀ i < 3, ∃ s, L.stations[i]? = some s ∧ s.phi = Real.pi / 2 ∧ s.warned = false := by
  have h := distributedAeroLoads_standstill demoBq demoRotor 10 0 0 0 rfl (by simp) (fun x => by simp [num_real])
  simp only [num_real, Nat.cast_ofNat] at h
  exact h

/-- **C30** The exceptions that can leave the call: a `ValueError` only when derivatives are requested (zero normal
force coefficient, speed or chord), an `UnboundLocalError` only for a rotor at standstill with NaN loads.  A rejection
by the root finder is never among them. -/
theorem distributedAeroLoads_raises (bq : RootFinder α) (hbq : OnlyValueError bq) (R : Rotor α)
    (Uinf Omega pitch az : α) (hiter : R.iterRe ≠ 0) (e : PyErr)
    (h : (distributedAeroLoads bq R Uinf Omega pitch az).2 = .error e) :
    (e = .valueError ∧ R.derivatives = true) ∨ (e = .unboundLocal ∧ (Omega == 0) = true) := by
  obtain ⟨i, _, hi⟩ := solveStations_error (distributedAeroLoads_error h)
  unfold solveStation at hi
  split at hi
  · rename_i e' h1
    unfold stationPhi at h1
    rw [if_neg hiter] at h1
    obtain ⟨phi, w, h2, _⟩ := solvePhi_found hbq
      (stationErrf R (deg2rad pitch) (rotorWind R Uinf Omega (deg2rad az)) i)
    rw [h2] at h1
    split_ifs at h1
  · simp only at hi
    split at hi
    · rename_i e' he
      simp only [Except.error.injEq] at hi
      subst hi
      exact Or.inl (secLoads_error he)
    · split_ifs at hi with hn
      simp only [Except.error.injEq] at hi
      exact Or.inr ⟨hi.symm, (Bool.and_eq_true_iff.mp hn).2⟩

/-- A blade with zero chord, derivatives requested. -/
noncomputable def demoRotorFlat : Rotor ℝ := { demoRotor with derivatives := true, chord := fun _ => 0 }

/-- With derivatives requested, a zero chord makes the call raise. -/
example : (distributedAeroLoads demoBq demoRotorFlat 10 12 0 0).2 = .error .valueError := by
  have hw : rotorWind demoRotorFlat 10 12 (deg2rad 0) 0 = (10, 4 * Real.pi) := by
    have := demoRotor_wind 10 12 (deg2rad 0) 0
    rw [show rotorWind demoRotorFlat 10 12 (deg2rad 0) 0 = rotorWind demoRotor 10 12 (deg2rad 0) 0 from rfl, this]
    norm_num
    ring
  obtain ⟨phi, w, hphi, _⟩ := solvePhi_found demoBq_onlyValueError
    (stationErrf demoRotorFlat (deg2rad 0) (rotorWind demoRotorFlat 10 12 (deg2rad 0)) 0)
  have h0 : solveStation demoBq demoRotorFlat (deg2rad 0) 12 (rotorWind demoRotorFlat 10 12 (deg2rad 0)) 0
      = .error .valueError := by
    unfold solveStation stationPhi
    rw [if_neg (by simp [num_real]), if_neg (by simp [demoRotorFlat, demoRotor]), hphi]
    have hd : demoRotorFlat.derivatives = true := rfl
    have hc : demoRotorFlat.chord 0 = 0 := rfl
    have h1 : ((10 : ℝ) == 0) = false := by simp [num_real]
    have h2 : (4 * Real.pi == 0) = false := by simp [num_real, Real.pi_ne_zero]
    have h3 : ((0 : ℝ) == 0) = true := by simp [num_real]
    simp only [secLoads, stationSec, hw, hd, hc, h1, h2, h3, Bool.not_false, Bool.and_true, Bool.or_true, if_true]
  unfold distributedAeroLoads
  simp only
  rw [show demoRotorFlat.n = 2 + 1 from rfl, solveStations_head_error h0]

/-! ## C31 -/

/-- **C31** Which interval is searched, in terms of the residual at the ends. -/
theorem bracket_choice (f : ℝ → ℝ) :
    (f (1 / 1000000) * f (Real.pi / 2) ≤ 0 → bracket f = (1 / 1000000, Real.pi / 2)) ∧
    (0 < f (1 / 1000000) * f (Real.pi / 2) → f (-Real.pi / 4) < 0 → 0 < f (-(1 / 1000000)) →
      bracket f = (-Real.pi / 4, -(1 / 1000000))) ∧
    (0 < f (1 / 1000000) * f (Real.pi / 2) → ¬ (f (-Real.pi / 4) < 0 ∧ 0 < f (-(1 / 1000000))) →
      bracket f = (Real.pi / 2, Real.pi - 1 / 1000000)) := by
  have he : (bemEps : ℝ) = 1 / 1000000 := by simp only [bemEps, num_real]; norm_num
  unfold bracket
  simp only [he, num_real]
  push_cast
  refine ⟨fun h => if_neg (not_lt.mpr h), fun h1 h2 h3 => ?_, fun h1 h2 => ?_⟩
  · rw [if_pos h1, if_pos ⟨h2, h3⟩]
  · rw [if_pos h1, if_neg h2]

/-- **C31** In the first two cases the residual has opposite signs at the ends (or vanishes), so a continuous residual
has a root in the interval. -/
theorem bracket_root (f : ℝ → ℝ) (b : ℝ × ℝ) (hb : bracket f = b)
    (h : b.1 = 1 / 1000000 ∨ b.1 = -Real.pi / 4) :
    f b.1 * f b.2 ≤ 0 ∧ b.1 < b.2 ∧
    (ContinuousOn f (Set.Icc b.1 b.2) → ∃ phi ∈ Set.Icc b.1 b.2, f phi = 0) := by
  obtain ⟨c1, c2, c3⟩ := bracket_choice f
  have hpi := Real.pi_gt_three
  have main : f b.1 * f b.2 ≤ 0 ∧ b.1 < b.2 := by
    by_cases h1 : f (1 / 1000000) * f (Real.pi / 2) ≤ 0
    · rw [← hb, c1 h1]
      exact ⟨h1, by norm_num; linarith⟩
    · rw [not_le] at h1
      by_cases h2 : f (-Real.pi / 4) < 0 ∧ 0 < f (-(1 / 1000000))
      · rw [← hb, c2 h1 h2.1 h2.2]
        exact ⟨(mul_neg_of_neg_of_pos h2.1 h2.2).le, by norm_num; linarith⟩
      · rw [← hb, c3 h1 h2] at h
        simp only at h
        rcases h with h | h <;> norm_num at h <;> linarith
  refine ⟨main.1, main.2, fun hc => ?_⟩
  rcases mul_nonpos_iff.mp main.1 with ⟨h1, h2⟩ | ⟨h1, h2⟩
  · exact intermediate_value_Icc' main.2.le hc ⟨h2, h1⟩
  · exact intermediate_value_Icc main.2.le hc ⟨h1, h2⟩

/-- The three cases occur. -/
example : bracket (fun x : ℝ => x - 1) = (1 / 1000000, Real.pi / 2) :=
  (bracket_choice _).1 (by have := Real.pi_gt_three; nlinarith)

example : bracket (fun x : ℝ => x + 1 / 2) = (-Real.pi / 4, -(1 / 1000000)) :=
  (bracket_choice _).2.1 (by have := Real.pi_gt_three; nlinarith) (by have := Real.pi_gt_three; linarith) (by norm_num)

example : bracket (fun x : ℝ => 2 - x) = (Real.pi / 2, Real.pi - 1 / 1000000) :=
  (bracket_choice _).2.2 (by have := Real.pi_lt_four; nlinarith)
    (by have := Real.pi_gt_three; intro h; linarith [h.1])

/-! ## C35 -/

/-- **C35** The normal load returned is never NaN. -/
theorem distributedAeroLoads_no_nan (bq : RootFinder α) (h0 : Num.isNaN (0 : α) = false) (R R' : Rotor α)
    (Uinf Omega pitch az : α) (L : LoadsOut α) (h : distributedAeroLoads bq R Uinf Omega pitch az = (R', .ok L)) :
    ∀ s ∈ L.stations, Num.isNaN s.loads.Np = false := by
  obtain ⟨hl, hs⟩ := solveStations_ok (distributedAeroLoads_stations h)
  intro s hmem
  obtain ⟨i, hi, rfl⟩ := List.getElem_of_mem hmem
  obtain ⟨s', e1, e2⟩ := hs i (by omega)
  rw [List.getElem?_eq_getElem hi, Option.some.injEq] at e1
  rw [e1]
  obtain ⟨l, d, _, _, _, h5, _⟩ := solveStation_ok e2
  rw [h5]
  split_ifs with hn
  · exact h0
  · simpa using hn

/-- **C35** A station whose loads come out as NaN reports zero loads, induction factors and angle of attack, and any
other station reports what `__loads` returned. -/
theorem solveStation_nan (bq : RootFinder α) (R : Rotor α) (pitch Omega : α) (V : ℕ → α × α) (i : ℕ) (s : Station α)
    (h : solveStation bq R pitch Omega V i = .ok s) :
    ∃ l d, secLoads R pitch s.phi (!(Omega == 0)) ⟨R.r i, R.chord i, s.theta, R.af i, (V i).1, (V i).2⟩ = .ok (l, d) ∧
      (Num.isNaN l.Np = false → s.loads = l) ∧
      (Num.isNaN l.Np = true → s.loads.Np = 0 ∧ s.loads.Tp = 0 ∧ s.loads.a = 0 ∧ s.loads.ap = 0 ∧
        s.loads.alpha = 0) := by
  obtain ⟨l, d, _, _, h3, h4, _⟩ := solveStation_ok h
  refine ⟨l, d, h3, fun hn => by rw [h4, hn]; simp, fun hn => by rw [h4, hn]; simp⟩

/-! ## C37 -/

/-- **C37** Two rotors that have the same chord, twist and airfoil at station `i` (and are otherwise equal except for
chord, twist and airfoils of other stations) get the same result at station `i`. -/
theorem distributedAeroLoads_strip (bq : RootFinder α) (R : Rotor α) (chord' theta' : ℕ → α) (af' : ℕ → AirfoilI α)
    (i : ℕ) (hi : i < R.n) (hc : chord' i = R.chord i) (ht : theta' i = R.theta i) (ha : af' i = R.af i)
    (Uinf Omega pitch az : α) (R1 R2 : Rotor α) (L1 L2 : LoadsOut α)
    (h1 : distributedAeroLoads bq R Uinf Omega pitch az = (R1, .ok L1))
    (h2 : distributedAeroLoads bq { R with chord := chord', theta := theta', af := af' } Uinf Omega pitch az
      = (R2, .ok L2)) :
    ∃ s, L1.stations[i]? = some s ∧ L2.stations[i]? = some s := by
  obtain ⟨s, e1, e2⟩ := (solveStations_ok (distributedAeroLoads_stations h1)).2 i hi
  obtain ⟨s', e3, e4⟩ := (solveStations_ok (distributedAeroLoads_stations h2)).2 i hi
  have key : solveStation bq { R with chord := chord', theta := theta', af := af' } (deg2rad pitch) Omega
      (rotorWind { R with chord := chord', theta := theta', af := af' } Uinf Omega (deg2rad az)) i
      = solveStation bq R (deg2rad pitch) Omega (rotorWind R Uinf Omega (deg2rad az)) i :=
    SameCore.solveStation (S := { R with chord := chord', theta := theta', af := af' }) (R := R) ⟨rfl, rfl, rfl, rfl, rfl, rfl, rfl, rfl⟩
      _ _ _ _ _ rfl hc ha rfl (fun _ => ht)
  rw [key, e2, Except.ok.injEq] at e4
  subst e4
  exact ⟨s, e1, e3⟩

/-- Not vacuous: the sample rotor and the same rotor with another chord and twist at its first station agree at the second. -/
example : ∃ L1 L2 s, (distributedAeroLoads demoBq demoRotor 10 12 0 0).2 = .ok L1 ∧
    (distributedAeroLoads demoBq { demoRotor with chord := (fun i => if i = 0 then 7 else demoRotor.chord i), theta := (fun i => if i = 0 then 1 else demoRotor.theta i) } 10 12 0 0).2 = .ok L2 ∧
    L1.stations[1]? = some s ∧ L2.stations[1]? = some s := by
  obtain ⟨L1, h1, -⟩ := distributedAeroLoads_finds demoBq demoBq_onlyValueError demoRotor 10 12 0 0 (by simp [demoRotor]) rfl (by simp)
  obtain ⟨L2, h2, -⟩ := distributedAeroLoads_finds demoBq demoBq_onlyValueError
    { demoRotor with chord := (fun i => if i = 0 then 7 else demoRotor.chord i), theta := (fun i => if i = 0 then 1 else demoRotor.theta i) } 10 12 0 0 (by simp [demoRotor]) rfl (by simp)
  obtain ⟨s, g1, g2⟩ := distributedAeroLoads_strip demoBq demoRotor (fun i => if i = 0 then 7 else demoRotor.chord i)
    (fun i => if i = 0 then 1 else demoRotor.theta i) demoRotor.af 1 (by simp [demoRotor]) rfl rfl rfl 10 12 0 0 _ _ L1 L2
    (Prod.ext rfl h1) (Prod.ext rfl h2)
  exact ⟨L1, L2, s, h1, h2, g1, g2⟩

end Verif
