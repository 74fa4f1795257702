import Verif.Model.CCBlade
import Mathlib.Tactic.Linarith

/-! # Auxiliary lemmas on the model of `CCBlade`, for every scalar type -/

namespace Verif

variable {α : Type} [Num α]

theorem solveStations_ok {bq : RootFinder α} {R : Rotor α} {pitch Omega : α} {V : ℕ → α × α} :
    ∀ {k : ℕ} {l : List (Station α)}, solveStations bq R pitch Omega V k = .ok l →
      l.length = k ∧ ∀ i < k, ∃ s, l[i]? = some s ∧ solveStation bq R pitch Omega V i = .ok s
  | 0, l, h => by
    simp only [solveStations, Except.ok.injEq] at h
    subst h
    simp
  | k + 1, l, h => by
    simp only [solveStations, bind, Except.bind, pure, Except.pure] at h
    split at h
    · exact absurd h (by simp)
    · rename_i l0 h0
      split at h
      · exact absurd h (by simp)
      · rename_i s hs
        simp only [Except.ok.injEq] at h
        subst h
        obtain ⟨h1, h2⟩ := solveStations_ok h0
        refine ⟨by simp [h1], fun i hi => ?_⟩
        rcases Nat.lt_succ_iff_lt_or_eq.mp hi with hlt | rfl
        · obtain ⟨s', e1, e2⟩ := h2 i hlt
          exact ⟨s', by rw [List.getElem?_append_left (by omega)]; exact e1, e2⟩
        · exact ⟨s, by rw [← h1]; simp, hs⟩

theorem solveStations_of_all {bq : RootFinder α} {R : Rotor α} {pitch Omega : α} {V : ℕ → α × α} :
    ∀ {k : ℕ}, (∀ i < k, ∃ s, solveStation bq R pitch Omega V i = .ok s) →
      ∃ l, solveStations bq R pitch Omega V k = .ok l
  | 0, _ => ⟨[], rfl⟩
  | k + 1, h => by
    obtain ⟨l, hl⟩ := solveStations_of_all (k := k) fun i hi => h i (by omega)
    obtain ⟨s, hs⟩ := h k (by omega)
    exact ⟨l ++ [s], by simp [solveStations, hl, hs, bind, Except.bind, pure, Except.pure]⟩

theorem solveStations_error {bq : RootFinder α} {R : Rotor α} {pitch Omega : α} {V : ℕ → α × α} {e : PyErr} :
    ∀ {k : ℕ}, solveStations bq R pitch Omega V k = .error e →
      ∃ i < k, solveStation bq R pitch Omega V i = .error e
  | 0, h => by simp [solveStations] at h
  | k + 1, h => by
    simp only [solveStations, bind, Except.bind, pure, Except.pure] at h
    split at h
    · rename_i e' h0
      simp only [Except.error.injEq] at h
      subst h
      obtain ⟨i, hi, he⟩ := solveStations_error h0
      exact ⟨i, by omega, he⟩
    · split at h
      · rename_i e' hs
        simp only [Except.error.injEq] at h
        subst h
        exact ⟨k, by omega, hs⟩
      · exact absurd h (by simp)

theorem solveStations_head_error {bq : RootFinder α} {R : Rotor α} {pitch Omega : α} {V : ℕ → α × α} {e : PyErr}
    (h : solveStation bq R pitch Omega V 0 = .error e) (k : ℕ) :
    solveStations bq R pitch Omega V (k + 1) = .error e := by
  induction k with
  | zero => simp [solveStations, h, bind, Except.bind]
  | succ k ih => rw [solveStations, ih]; rfl

theorem solveStations_congr {bq : RootFinder α} {R R' : Rotor α} {pitch pitch' Omega Omega' : α} {V V' : ℕ → α × α} :
    ∀ {k : ℕ}, (∀ i < k, solveStation bq R pitch Omega V i = solveStation bq R' pitch' Omega' V' i) →
      solveStations bq R pitch Omega V k = solveStations bq R' pitch' Omega' V' k
  | 0, _ => rfl
  | k + 1, h => by
    simp only [solveStations]
    rw [solveStations_congr fun i hi => h i (by omega), h k (by omega)]

/-- The result of `distributedAeroLoads` in terms of the loop. -/
theorem distributedAeroLoads_stations {bq : RootFinder α} {R R' : Rotor α} {Uinf Omega pitch az : α} {L : LoadsOut α}
    (h : distributedAeroLoads bq R Uinf Omega pitch az = (R', .ok L)) :
    solveStations bq R (deg2rad pitch) Omega (rotorWind R Uinf Omega (deg2rad az)) R.n = .ok L.stations := by
  unfold distributedAeroLoads at h
  simp only at h
  split at h
  · simp at h
  · rename_i s hs
    rw [hs]
    split_ifs at h <;> simp only [Prod.mk.injEq, Except.ok.injEq] at h <;> rw [← h.2]

theorem distributedAeroLoads_of_stations {bq : RootFinder α} {R : Rotor α} {Uinf Omega pitch az : α}
    {s : List (Station α)}
    (h : solveStations bq R (deg2rad pitch) Omega (rotorWind R Uinf Omega (deg2rad az)) R.n = .ok s) :
    ∃ L, (distributedAeroLoads bq R Uinf Omega pitch az).2 = .ok L ∧ L.stations = s := by
  unfold distributedAeroLoads
  simp only [h]
  split_ifs <;> exact ⟨_, rfl, rfl⟩

theorem distributedAeroLoads_error {bq : RootFinder α} {R : Rotor α} {Uinf Omega pitch az : α} {e : PyErr}
    (h : (distributedAeroLoads bq R Uinf Omega pitch az).2 = .error e) :
    solveStations bq R (deg2rad pitch) Omega (rotorWind R Uinf Omega (deg2rad az)) R.n = .error e := by
  unfold distributedAeroLoads at h
  simp only at h
  split at h
  · rename_i e' h'
    simp only [Except.error.injEq] at h
    rw [h', h]
  · split_ifs at h

/-- Equality of the attributes read by the private methods. -/
structure SameCore (S R : Rotor α) : Prop where
  Rhub : S.Rhub = R.Rhub
  Rtip : S.Rtip = R.Rtip
  B : S.B = R.B
  rho : S.rho = R.rho
  mu : S.mu = R.mu
  opts : S.opts = R.opts
  iterRe : S.iterRe = R.iterRe
  derivatives : S.derivatives = R.derivatives

theorem SameCore.bemPass {S R : Rotor α} (h : SameCore S R) (pitch phi : α) (x : Sec α) (a ap : α) :
    bemPass S pitch phi x a ap = bemPass R pitch phi x a ap := by
  simp only [Verif.bemPass, h.Rhub, h.Rtip, h.B, h.rho, h.mu, h.opts]

theorem SameCore.bemPasses {S R : Rotor α} (h : SameCore S R) (pitch phi : α) (x : Sec α) (k : ℕ) (o : BemOut α) :
    bemPasses S pitch phi x k o = bemPasses R pitch phi x k o := by
  induction k generalizing o with
  | zero => rfl
  | succ k ih => simp only [Verif.bemPasses, h.bemPass, ih]

theorem SameCore.runBEM {S R : Rotor α} (h : SameCore S R) (pitch phi : α) (x : Sec α) :
    runBEM S pitch phi x = runBEM R pitch phi x := by
  simp only [Verif.runBEM, h.bemPass, h.bemPasses, h.iterRe]

theorem SameCore.errFun {S R : Rotor α} (h : SameCore S R) (pitch : α) (x : Sec α) :
    errFun S pitch x = errFun R pitch x := by
  funext phi
  simp only [Verif.errFun, h.runBEM]

theorem SameCore.errFunInv {S R : Rotor α} (h : SameCore S R) (x : Sec α) (cl cd : α) :
    errFunInv S x cl cd = errFunInv R x cl cd := by
  funext phi
  simp only [Verif.errFunInv, h.Rhub, h.Rtip, h.B, h.opts]

theorem SameCore.residualDerivatives {S R : Rotor α} (h : SameCore S R) (pitch phi : α) (x : Sec α) :
    residualDerivatives S pitch phi x = residualDerivatives R pitch phi x := by
  funext j
  simp only [Verif.residualDerivatives, h.Rhub, h.Rtip, h.B, h.rho, h.mu, h.opts]

theorem SameCore.secLoads {S R : Rotor α} (h : SameCore S R) (pitch phi : α) (rot : Bool) (x : Sec α) :
    secLoads S pitch phi rot x = secLoads R pitch phi rot x := by
  have hv : secValues S pitch phi rot x = secValues R pitch phi rot x := by
    simp only [secValues, h.runBEM, h.rho, h.mu]
  have hd : secDerivs S pitch phi rot x = secDerivs R pitch phi rot x := by
    funext v
    simp only [secDerivs, h.residualDerivatives, h.rho, h.mu]
  simp only [Verif.secLoads, hv, hd, h.derivatives]

/-- The solve of a station reads only that station's entries; in the inverse analysis it does not read the twist. -/
theorem SameCore.solveStation {S R : Rotor α} (h : SameCore S R) (bq : RootFinder α) (pitch Omega : α)
    (V : ℕ → α × α) (i : ℕ) (hr : S.r i = R.r i) (hc : S.chord i = R.chord i) (ha : S.af i = R.af i)
    (hi : S.inv = R.inv) (ht : R.inv = none → S.theta i = R.theta i) :
    solveStation bq S pitch Omega V i = solveStation bq R pitch Omega V i := by
  have hs : ∀ th, stationSec S V i th = stationSec R V i th := by
    intro th; simp only [stationSec, hr, hc, ha]
  have hth : ∀ phi, stationTheta S pitch phi i = stationTheta R pitch phi i := by
    intro phi
    simp only [stationTheta, hi]
    cases hR : R.inv with
    | none => exact ht hR
    | some d => rfl
  have he : stationErrf S pitch V i = stationErrf R pitch V i := by
    simp only [stationErrf, hi, hs, h.errFun, h.errFunInv]
    cases hR : R.inv with
    | none => simp only [ht hR]
    | some d => rfl
  simp only [Verif.solveStation, stationPhi, he, hs, hth, h.secLoads, h.iterRe]

end Verif
