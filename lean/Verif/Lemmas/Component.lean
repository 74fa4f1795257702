import Verif.Model.Component
import Verif.Lemmas.Interp
import Mathlib.Tactic.Ring
import Mathlib.Tactic.Linarith

/-! # Auxiliary lemmas on the components -/

namespace Verif

/-- Interpolation in a constant table. -/
theorem npInterp_const (n : ℕ) (hn : n ≠ 0) (f : ℕ → ℝ) (c x : ℝ) : npInterp x (arr n fun i => (f i, c)) = .ok c := by
  rcases lt_or_ge (f (n - 1)) x with h1 | h1
  · exact npInterp_high n (by omega) f (fun _ => c) x h1
  rcases lt_or_ge x (f 0) with h0 | h0
  · exact npInterp_low n (by omega) f (fun _ => c) x h0 h1
  obtain ⟨k, t, -, -, -, -, -, h⟩ := npInterp_arr n (by omega) f x h0 h1
  rw [h fun _ => c]
  simp

theorem setAt_const {c : ℝ} {i : ℕ} : setAt (fun _ : ℕ => c) i c = fun _ => c := by
  funext j
  simp [setAt]

/-- The tip value of an offset is not resampled: it differs from the given tip value, or the offset vanishes. -/
def FreeTip (n : ℕ) (f : ℕ → ℝ) (tip : ℝ) : Prop := tip ≠ f (n - 1) ∨ f = fun _ => 0

/-- The constructor leaves a blade that ends neither at the hub nor at the tip as it is. -/
theorem build_interior (x : CCArgs ℝ) (hn : x.n ≠ 0) (hh : x.Rhub ≠ x.r 0) (ht : x.Rtip ≠ x.r (x.n - 1)) (pc ps : ℕ → ℝ)
    (tpc tps : ℝ) (hpc : x.precurve.getD (fun _ => 0) = pc) (hps : x.presweep.getD (fun _ => 0) = ps)
    (htpc : (if x.precurve.isNone then 0 else x.precurveTip) = tpc)
    (htps : (if x.presweep.isNone then 0 else x.presweepTip) = tps)
    (hfc : FreeTip x.n pc tpc) (hfs : FreeTip x.n ps tps) :
    x.build = .ok {
      n := x.n, r := x.r, chord := x.chord, theta := fun i => deg2rad (x.theta i), af := x.af
      Rhub := x.Rhub, Rtip := x.Rtip, B := x.B, rho := x.rho, mu := x.mu
      precone := deg2rad x.precone, tilt := deg2rad x.tilt, yaw := deg2rad x.yaw, shearExp := x.shearExp, hubHt := x.hubHt
      opts := ⟨x.usecd, x.hubloss, x.tiploss, x.wakerotation⟩
      iterRe := x.iterRe, derivatives := x.derivatives
      precurve := pc, precurveTip := tpc, presweep := ps, presweepTip := tps
      rotorR := x.Rtip * Num.cos (deg2rad x.precone) + tpc * Num.sin (deg2rad x.precone)
      nSector := if deg2rad x.tilt == 0 && deg2rad x.yaw == 0 && x.shearExp == 0 then 1 else max 4 x.nSector
      inv := none, pitch := none, saved := none } := by
  unfold CCArgs.build
  simp only [hn, if_false, hpc, hps, htpc, htps]
  obtain ⟨y1, h1⟩ := npInterp_total x.n hn (fun i => ((x.r i - x.r 0) / (x.r (x.n - 1) - x.r 0), x.r i))
    (npMinimum (Num.nat 1 / Num.nat 100) (if x.n = 1 then (x.r 0 - x.r 0) / (x.r (x.n - 1) - x.r 0)
      else ((x.r 0 - x.r 0) / (x.r (x.n - 1) - x.r 0) + (x.r 1 - x.r 0) / (x.r (x.n - 1) - x.r 0)) / Num.nat 2))
  rw [h1]
  generalize hnd : npMaximum (Num.nat 99 / Num.nat 100 : ℝ) (if x.n = 1 then (x.r 0 - x.r 0) / (x.r (x.n - 1) - x.r 0)
      else ((x.r (x.n - 2) - x.r 0) / (x.r (x.n - 1) - x.r 0)
        + (x.r (x.n - 1) - x.r 0) / (x.r (x.n - 1) - x.r 0)) / Num.nat 2) = nd
  obtain ⟨y2, h2⟩ := npInterp_total x.n hn (fun i => ((x.r i - x.r 0) / (x.r (x.n - 1) - x.r 0), x.r i)) nd
  have hoff : ∀ (f : ℕ → ℝ) (tip : ℝ), FreeTip x.n f tip → ∃ y,
      npInterp nd (arr x.n fun i => ((x.r i - x.r 0) / (x.r (x.n - 1) - x.r 0), f i)) = .ok y ∧
      (if tip == f (x.n - 1) then setAt f (x.n - 1) y else f) = f := by
    intro f tip hf
    rcases hf with h | rfl
    · obtain ⟨y, hy⟩ := npInterp_total x.n hn (fun i => ((x.r i - x.r 0) / (x.r (x.n - 1) - x.r 0), f i)) nd
      exact ⟨y, hy, if_neg (by simpa [num_real] using h)⟩
    · refine ⟨0, npInterp_const x.n hn _ 0 nd, ?_⟩
      rw [setAt_const]
      split_ifs <;> rfl
  obtain ⟨y3, h3, e3⟩ := hoff pc tpc hfc
  obtain ⟨y4, h4, e4⟩ := hoff ps tps hfs
  have e1 : (x.Rhub == x.r 0) = false := by simpa [num_real] using hh
  have e2 : (x.Rtip == x.r (x.n - 1)) = false := by simpa [num_real] using ht
  simp only [h2, h3, h4, e3, e4, e1, e2, bind, Except.bind, pure, Except.pure, Bool.false_eq_true, if_false]

/-- Attributes that the constructor takes over unchanged. -/
theorem build_data {α : Type} [Num α] {x : CCArgs α} {R : Rotor α} (h : x.build = .ok R) :
    R.n = x.n ∧ R.af = x.af ∧ R.rho = x.rho ∧ R.mu = x.mu ∧ R.B = x.B ∧ R.iterRe = x.iterRe ∧
    R.derivatives = x.derivatives ∧ R.shearExp = x.shearExp ∧ R.hubHt = x.hubHt ∧ R.Rhub = x.Rhub ∧ R.Rtip = x.Rtip ∧
    R.presweepTip = (if x.presweep.isNone then 0 else x.presweepTip) ∧ R.pitch = none ∧ R.saved = none := by
  unfold CCArgs.build at h
  by_cases hn : x.n = 0
  · simp [hn, throw, throwThe, MonadExceptOf.throw, bind, Except.bind] at h
  · simp only [hn, if_false, bind, Except.bind, pure, Except.pure] at h
    split at h
    · exact absurd h (by simp)
    · split at h
      · exact absurd h (by simp)
      · split at h
        · exact absurd h (by simp)
        · split at h
          · exact absurd h (by simp)
          · simp only [Except.ok.injEq] at h
            subst h
            exact ⟨rfl, rfl, rfl, rfl, rfl, rfl, rfl, rfl, rfl, rfl, rfl, rfl, rfl, rfl⟩

end Verif
