import Verif.Lemmas.CCBlade

/-! # How the methods of `CCBlade` change the object and read it -/

namespace Verif

variable {α : Type} [Num α]

/-- `S` differs from `R` at most in the attributes that methods overwrite; the twist only in the inverse analysis. -/
def SameDesign (R S : Rotor α) : Prop :=
  ∃ p s t, S = { R with pitch := p, saved := s, theta := t } ∧ (R.inv = none → t = R.theta)

theorem SameDesign.refl (R : Rotor α) : SameDesign R R := ⟨R.pitch, R.saved, R.theta, rfl, fun _ => rfl⟩

theorem SameDesign.trans {R S T : Rotor α} (h1 : SameDesign R S) (h2 : SameDesign S T) : SameDesign R T := by
  obtain ⟨p, s, t, rfl, h⟩ := h1
  obtain ⟨p', s', t', rfl, h'⟩ := h2
  exact ⟨p', s', t', rfl, fun hi => (h' hi).trans (h hi)⟩

theorem SameDesign.stations {R S : Rotor α} (h : SameDesign R S) (bq : RootFinder α) (pitch Omega : α)
    (V : ℕ → α × α) (k : ℕ) : solveStations bq S pitch Omega V k = solveStations bq R pitch Omega V k := by
  obtain ⟨p, s, t, rfl, ht⟩ := h
  refine solveStations_congr fun i _ => ?_
  exact SameCore.solveStation (S := { R with pitch := p, saved := s, theta := t }) (R := R)
    ⟨rfl, rfl, rfl, rfl, rfl, rfl, rfl, rfl⟩ bq pitch Omega V i rfl rfl rfl rfl (fun hi => by rw [← ht hi])

theorem sameDesign_loads (bq : RootFinder α) (R : Rotor α) (Uinf Omega pitch az : α) :
    SameDesign R (distributedAeroLoads bq R Uinf Omega pitch az).1 := by
  unfold distributedAeroLoads
  simp only
  split
  · exact ⟨_, R.saved, R.theta, rfl, fun _ => rfl⟩
  · rename_i s hs
    cases hi : R.inv with
    | none =>
      simp only
      split_ifs
      · exact ⟨some (deg2rad pitch), some (loadJac R Uinf Omega (deg2rad az) s), R.theta, by simp [hi], fun _ => rfl⟩
      · exact ⟨some (deg2rad pitch), R.saved, R.theta, by simp [hi], fun _ => rfl⟩
    | some d =>
      simp only
      split_ifs
      · exact ⟨_, _, _, by simp only [hi]; rfl, by rw [hi]; simp⟩
      · exact ⟨_, R.saved, _, by simp only [hi]; rfl, by rw [hi]; simp⟩

/-- The result depends on the design only, and so do the saved Jacobians. -/
theorem SameDesign.loads {R S : Rotor α} (h : SameDesign R S) (bq : RootFinder α) (Uinf Omega pitch az : α) :
    (distributedAeroLoads bq S Uinf Omega pitch az).2 = (distributedAeroLoads bq R Uinf Omega pitch az).2 ∧
    (∀ L, (distributedAeroLoads bq R Uinf Omega pitch az).2 = .ok L → R.derivatives = true →
      (distributedAeroLoads bq S Uinf Omega pitch az).1.saved
        = (distributedAeroLoads bq R Uinf Omega pitch az).1.saved) := by
  have hs := h.stations bq (deg2rad pitch) Omega (rotorWind R Uinf Omega (deg2rad az)) R.n
  obtain ⟨p, s, t, rfl, ht⟩ := h
  unfold distributedAeroLoads
  have hw : rotorWind { R with pitch := p, saved := s, theta := t } Uinf Omega (deg2rad az)
    = rotorWind R Uinf Omega (deg2rad az) := rfl
  have hj : ∀ st, loadJac { R with pitch := p, saved := s, theta := t } Uinf Omega (deg2rad az) st
    = loadJac R Uinf Omega (deg2rad az) st := fun _ => rfl
  simp only [hw, hs, hj]
  constructor
  · split
    · rfl
    · split_ifs <;> rfl
  · intro L hL hd
    split at hL
    · exact absurd hL (by simp)
    · simp only [hd, if_true]

theorem SameDesign.sectorStep {R S : Rotor α} (h : SameDesign R S)
    (hs : R.derivatives = true → S.saved = R.saved) (az : α) (L : LoadsOut α) (acc : RotorAcc α) :
    sectorStep S az L acc = sectorStep R az L acc := by
  obtain ⟨p, s, t, rfl, ht⟩ := h
  by_cases hd : R.derivatives = true
  · have hs' : s = R.saved := hs hd
    subst hs'
    rfl
  · simp only [Verif.sectorStep, if_neg hd]

theorem sameDesign_sectorLoop (bq : RootFinder α) (Uinf Omega pitch : α) :
    ∀ (azs : List α) (R : Rotor α) (acc : RotorAcc α),
      SameDesign R (sectorLoop bq Uinf Omega pitch azs R acc).1
  | [], R, _ => SameDesign.refl R
  | az :: rest, R, acc => by
    have h := sameDesign_loads bq R Uinf Omega pitch (rad2deg az)
    unfold sectorLoop
    split
    · rename_i R' e he
      rw [he] at h
      exact h
    · rename_i R' L he
      rw [he] at h
      exact h.trans (sameDesign_sectorLoop bq Uinf Omega pitch rest R' _)

theorem SameDesign.sectorLoop (bq : RootFinder α) (Uinf Omega pitch : α) :
    ∀ (azs : List α) {R S : Rotor α} (_ : SameDesign R S) (acc : RotorAcc α),
      (sectorLoop bq Uinf Omega pitch azs S acc).2 = (sectorLoop bq Uinf Omega pitch azs R acc).2
  | [], _, _, _, _ => rfl
  | az :: rest, R, S, h, acc => by
    obtain ⟨h1, h2⟩ := h.loads bq Uinf Omega pitch (rad2deg az)
    have hR := sameDesign_loads bq R Uinf Omega pitch (rad2deg az)
    have hS := sameDesign_loads bq S Uinf Omega pitch (rad2deg az)
    unfold Verif.sectorLoop
    generalize distributedAeroLoads bq R Uinf Omega pitch (rad2deg az) = dR at *
    generalize distributedAeroLoads bq S Uinf Omega pitch (rad2deg az) = dS at *
    obtain ⟨R', rR⟩ := dR
    obtain ⟨S', rS⟩ := dS
    simp only at h1 hR hS h2
    subst h1
    cases rS with
    | error e => rfl
    | ok L =>
      simp only
      have hRS : SameDesign R' S' := by
        obtain ⟨p, s, t, rfl, ht⟩ := h
        obtain ⟨p1, s1, t1, rfl, ht1⟩ := hR
        obtain ⟨p2, s2, t2, rfl, ht2⟩ := hS
        exact ⟨p2, s2, t2, rfl, fun hi => by
          have a1 := ht hi
          have a2 := ht1 hi
          have a3 := ht2 hi
          simp only at a1 a2 a3 ⊢
          rw [a3, a1, a2]⟩
      rw [hRS.sectorStep]
      · exact SameDesign.sectorLoop bq Uinf Omega pitch rest hRS _
      · intro hd
        apply h2 L rfl
        obtain ⟨p1, s1, t1, rfl, ht1⟩ := hR
        exact hd

theorem SameDesign.nSector {R S : Rotor α} (h : SameDesign R S) : S.nSector = R.nSector := by
  obtain ⟨p, s, t, rfl, ht⟩ := h
  rfl

theorem SameDesign.coefs {R S : Rotor α} (h : SameDesign R S) (c : Cond α) (a : RotorAcc α) :
    coefs S c a = coefs R c a := by
  obtain ⟨p, s, t, rfl, ht⟩ := h
  rfl

/-- What one condition contributes. -/
def condAcc (bq : RootFinder α) (R : Rotor α) (c : Cond α) : Except PyErr (RotorAcc α) :=
  (sectorLoop bq c.Uinf c.Omega c.pitch (azimuthAngles R.nSector) R .zero).2

/-- Evaluate a list of possibly failing results in order. -/
def collect {β γ : Type} (f : β → Except PyErr γ) : List β → Except PyErr (List γ)
  | [] => .ok []
  | b :: rest => match f b with
    | .error e => .error e
    | .ok c => match collect f rest with
      | .error e => .error e
      | .ok l => .ok (c :: l)

theorem SameDesign.condAcc {R S : Rotor α} (h : SameDesign R S) (bq : RootFinder α) (c : Cond α) :
    condAcc bq S c = condAcc bq R c := by
  unfold Verif.condAcc
  rw [h.nSector]
  exact SameDesign.sectorLoop bq _ _ _ _ h _

theorem condLoop_collect (bq : RootFinder α) (R0 : Rotor α) :
    ∀ (cs : List (Cond α)) (R : Rotor α), SameDesign R0 R →
      (condLoop bq cs R).2 = collect (condAcc bq R0) cs ∧ SameDesign R0 (condLoop bq cs R).1
  | [], R, h => ⟨rfl, h⟩
  | c :: rest, R, h => by
    have hc := h.condAcc bq c
    have hd := sameDesign_sectorLoop bq c.Uinf c.Omega c.pitch (azimuthAngles R.nSector) R .zero
    unfold condAcc at hc
    simp only [condLoop, collect]
    unfold condAcc
    rw [← hc]
    generalize sectorLoop bq c.Uinf c.Omega c.pitch (azimuthAngles R.nSector) R .zero = q at *
    obtain ⟨R', r⟩ := q
    simp only at hd ⊢
    cases r with
    | error e => exact ⟨rfl, h.trans hd⟩
    | ok acc =>
      simp only
      obtain ⟨i1, i2⟩ := condLoop_collect bq R0 rest R' (h.trans hd)
      unfold condAcc at i1
      rw [← i1]
      generalize condLoop bq rest R' = q' at *
      obtain ⟨R'', r'⟩ := q'
      cases r' with
      | error e => exact ⟨rfl, i2⟩
      | ok l => exact ⟨rfl, i2⟩

theorem sameDesign_evaluate (bq : RootFinder α) (R : Rotor α) (cs : List (Cond α)) (co : Bool) :
    SameDesign R (evaluate bq R cs co).1 := by
  have h := (condLoop_collect bq R cs R (SameDesign.refl R)).2
  unfold evaluate
  generalize condLoop bq cs R = q at *
  obtain ⟨R', r⟩ := q
  cases r with
  | error e => exact h
  | ok l =>
    simp only
    split <;> exact h

/-- Result of `evaluate` in terms of the conditions taken separately. -/
theorem evaluate_collect (bq : RootFinder α) (R : Rotor α) (cs : List (Cond α)) (co : Bool) :
    (evaluate bq R cs co).2 = match collect (condAcc bq R) cs with
      | .error e => .error e
      | .ok accs => match accs.getLast?.bind RotorAcc.W with
        | none => .error .unboundLocal
        | some W => .ok ⟨List.zipWith (fun c a => ⟨a, power a.Q c.Omega, if co then some (coefs R c a) else none⟩) cs accs,
            W⟩ := by
  obtain ⟨h1, h2⟩ := condLoop_collect bq R cs R (SameDesign.refl R)
  unfold evaluate
  rw [← h1]
  generalize condLoop bq cs R = q at *
  obtain ⟨R', r⟩ := q
  cases r with
  | error e => rfl
  | ok l =>
    simp only
    generalize l.getLast?.bind RotorAcc.W = o
    cases o <;> rfl

theorem SameDesign.evaluate {R S : Rotor α} (h : SameDesign R S) (bq : RootFinder α) (cs : List (Cond α)) (co : Bool) :
    (evaluate bq S cs co).2 = (evaluate bq R cs co).2 := by
  have e1 : Verif.condAcc bq S = Verif.condAcc bq R := funext fun c => h.condAcc bq c
  rw [evaluate_collect, evaluate_collect, e1]
  simp only [h.coefs]

theorem collect_ok {β γ : Type} {f : β → Except PyErr γ} :
    ∀ {bs : List β} {cs : List γ}, collect f bs = .ok cs ↔ List.Forall₂ (fun b c => f b = .ok c) bs cs
  | [], cs => by
    simp only [collect, Except.ok.injEq]
    constructor
    · rintro rfl; exact .nil
    · rintro ⟨⟩; rfl
  | b :: bs, cs => by
    simp only [collect]
    constructor
    · intro h
      split at h
      · exact absurd h (by simp)
      · rename_i c hc
        split at h
        · exact absurd h (by simp)
        · rename_i l hl
          simp only [Except.ok.injEq] at h
          subst h
          exact .cons hc (collect_ok.mp hl)
    · rintro ⟨⟩
      rename_i c l h1 h2
      rw [h1, collect_ok.mpr h2]

/-- `W` is defined after the loop over the azimuth angles unless there were none. -/
theorem sectorLoop_W (bq : RootFinder α) (Uinf Omega pitch : α) :
    ∀ (azs : List α) (R : Rotor α) (acc acc' : RotorAcc α),
      (sectorLoop bq Uinf Omega pitch azs R acc).2 = .ok acc' →
      (acc'.W.isSome ↔ (azs ≠ [] ∨ acc.W.isSome))
  | [], R, acc, acc', h => by
    simp only [sectorLoop, Except.ok.injEq] at h
    subst h
    simp
  | az :: rest, R, acc, acc', h => by
    unfold sectorLoop at h
    split at h
    · exact absurd h (by simp)
    · have := sectorLoop_W bq Uinf Omega pitch rest _ _ _ h
      rw [this]
      simp [sectorStep]

end Verif
