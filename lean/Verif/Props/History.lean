import Verif.Lemmas.History
import Verif.Lemmas.Demo
import Verif.Props.Solve
import Mathlib.Data.List.Zip
import Mathlib.Data.List.Forall2

/-!
# Results do not depend on earlier calls, conditions are independent (C44, C45)
-/

namespace Verif

variable {α : Type} [Num α]

/-! ## Specification -/

/-- A call of a public method. -/
inductive Call (α : Type)
  | loads (Uinf Omega pitch azimuth : α)
  | evaluate (cs : List (Cond α)) (coefficients : Bool)

/-- The object after the call, and what the caller sees. -/
def Call.run (bq : RootFinder α) (R : Rotor α) : Call α → Rotor α × Except PyErr (LoadsOut α ⊕ EvalOut α)
  | .loads U Om p az => let x := distributedAeroLoads bq R U Om p az; (x.1, x.2.map Sum.inl)
  | .evaluate cs co => let x := Verif.evaluate bq R cs co; (x.1, x.2.map Sum.inr)

/-- The object after a sequence of calls (the caller catches exceptions). -/
def runCalls (bq : RootFinder α) : List (Call α) → Rotor α → Rotor α
  | [], R => R
  | c :: cs, R => runCalls bq cs (c.run bq R).1

/-! ## C44 -/

theorem sameDesign_runCalls (bq : RootFinder α) : ∀ (cs : List (Call α)) (R : Rotor α), SameDesign R (runCalls bq cs R)
  | [], R => .refl R
  | .loads U Om p az :: cs, R => (sameDesign_loads bq R U Om p az).trans (sameDesign_runCalls bq cs _)
  | .evaluate es co :: cs, R => (sameDesign_evaluate bq R es co).trans (sameDesign_runCalls bq cs _)

/-- **C44** After any sequence of calls, every call returns (loads, coefficients, derivatives, or exception) what it
returns on the object before these calls. -/
theorem call_history (bq : RootFinder α) (R : Rotor α) (before : List (Call α)) (c : Call α) :
    (c.run bq (runCalls bq before R)).2 = (c.run bq R).2 := by
  have h := sameDesign_runCalls bq before R
  cases c with
  | loads U Om p az => simp only [Call.run, (h.loads bq U Om p az).1]
  | evaluate cs co => simp only [Call.run, h.evaluate]

/-- **C44** In the direct analysis the sequence of calls leaves every design attribute, twist included, unchanged. -/
theorem call_design (bq : RootFinder α) (R : Rotor α) (before : List (Call α)) (hR : R.inv = none) :
    ∃ p s, runCalls bq before R = { R with pitch := p, saved := s } := by
  obtain ⟨p, s, t, h, ht⟩ := sameDesign_runCalls bq before R
  exact ⟨p, s, by rw [h, ht hR]⟩

/-- The calls do change the object: the stored pitch angle. -/
example : (runCalls demoBq [.loads 10 12 180 0] demoRotor).pitch = some Real.pi := by
  obtain ⟨L, h1, _⟩ := distributedAeroLoads_finds demoBq demoBq_onlyValueError demoRotor 10 12 180 0
    (by simp [demoRotor]) rfl (by simp)
  have h2 : (distributedAeroLoads demoBq demoRotor 10 12 180 0).1.pitch = some (deg2rad 180) := by
    unfold distributedAeroLoads at h1 ⊢
    simp only at h1 ⊢
    split at h1
    · exact absurd h1 (by simp)
    · rename_i s hs
      split_ifs <;> rfl
  simp only [runCalls, Call.run, h2, num_real]
  congr 1
  ring

example : (Call.run demoBq (runCalls demoBq [.loads 10 12 3 0, .evaluate [⟨10, 12, 3⟩] true] demoRotor)
    (.loads 8 9 0 0)).2 = (Call.run demoBq demoRotor (.loads 8 9 0 0)).2 :=
  call_history _ _ _ _

/-! ## C45 -/

/-- One condition evaluated alone. -/
theorem evaluate_single (bq : RootFinder α) (R : Rotor α) (c : Cond α) (co : Bool) (o : EvalOut α) :
    (evaluate bq R [c] co).2 = .ok o ↔
      ∃ a, condAcc bq R c = .ok a ∧ a.W = some o.W ∧
        o.conds = [⟨a, power a.Q c.Omega, if co then some (coefs R c a) else none⟩] := by
  rw [evaluate_collect]
  simp only [collect]
  cases h : condAcc bq R c with
  | error e => simp
  | ok a =>
    simp only [List.getLast?_singleton, Option.bind_some, List.zipWith_cons_cons, List.zipWith_nil_right]
    cases hW : a.W with
    | none => simp [hW]
    | some W =>
      obtain ⟨cs, W'⟩ := o
      simp only [Except.ok.injEq, EvalOut.mk.injEq, exists_eq_left', hW, Option.some.injEq]
      constructor
      · rintro ⟨h1, h2⟩; exact ⟨h2, h1.symm⟩
      · rintro ⟨h1, h2⟩; exact ⟨h2.symm, h1⟩

theorem condAcc_W {bq : RootFinder α} {R : Rotor α} {c : Cond α} {a : RotorAcc α} (h : condAcc bq R c = .ok a) :
    a.W.isSome ↔ R.nSector ≠ 0 := by
  have := sectorLoop_W bq _ _ _ _ _ _ _ h
  rw [this]
  simp [RotorAcc.zero, azimuthAngles, arr]

/-- **C45** Whenever a list of conditions can be evaluated, there is one result per condition, and it is the result of
evaluating that condition alone on the same object. -/
theorem evaluate_conditions (bq : RootFinder α) (R : Rotor α) (cs : List (Cond α)) (co : Bool) (o : EvalOut α)
    (h : (evaluate bq R cs co).2 = .ok o) :
    List.Forall₂ (fun c x => ∃ o1, (evaluate bq R [c] co).2 = .ok o1 ∧ o1.conds = [x]) cs o.conds := by
  rw [evaluate_collect] at h
  split at h
  · exact absurd h (by simp)
  · rename_i accs hacc
    split at h
    · exact absurd h (by simp)
    · rename_i W hW
      simp only [Except.ok.injEq] at h
      subst h
      rw [collect_ok] at hacc
      have hn : R.nSector ≠ 0 := by
        obtain ⟨a, ha, hWa⟩ := Option.bind_eq_some_iff.mp hW
        have hmem := List.mem_of_getLast? ha
        obtain ⟨i, hi, rfl⟩ := List.getElem_of_mem hmem
        have hc := (List.forall₂_iff_get.mp hacc).2 i (by have := hacc.length_eq; omega) hi
        exact (condAcc_W hc).mp (Option.isSome_iff_exists.mpr ⟨W, hWa⟩)
      clear hW
      induction hacc with
      | nil => exact .nil
      | @cons c a cs accs h1 h2 ih =>
        refine .cons ?_ ih
        obtain ⟨Wa, hWa⟩ := Option.isSome_iff_exists.mp ((condAcc_W h1).mpr hn)
        exact ⟨⟨_, Wa⟩, (evaluate_single bq R c co _).mpr ⟨a, h1, hWa, rfl⟩, rfl⟩

/-- **C45** A non-empty list of conditions can be evaluated when each of them can be evaluated alone. -/
theorem evaluate_conditions_ok (bq : RootFinder α) (R : Rotor α) (cs : List (Cond α)) (co : Bool) (hne : cs ≠ [])
    (h : ∀ c ∈ cs, ∃ o1, (evaluate bq R [c] co).2 = .ok o1) : ∃ o, (evaluate bq R cs co).2 = .ok o := by
  have h1 : ∃ accs, List.Forall₂ (fun c a => condAcc bq R c = .ok a ∧ a.W.isSome) cs accs := by
    clear hne
    induction cs with
    | nil => exact ⟨[], .nil⟩
    | cons c cs ih =>
      obtain ⟨accs, ih⟩ := ih fun c hc => h c (List.mem_cons_of_mem _ hc)
      obtain ⟨o1, ho1⟩ := h c List.mem_cons_self
      obtain ⟨a, h2, h3, _⟩ := (evaluate_single bq R c co o1).mp ho1
      exact ⟨a :: accs, .cons ⟨h2, by rw [h3]; rfl⟩ ih⟩
  obtain ⟨accs, h1⟩ := h1
  have h2 : collect (condAcc bq R) cs = .ok accs := collect_ok.mpr (h1.imp fun _ _ h => h.1)
  have hlen := h1.length_eq
  have hne' : accs ≠ [] := by
    rintro rfl
    exact hne (List.length_eq_zero_iff.mp hlen)
  have hl := List.getLast?_eq_some_getLast hne'
  have hW : (accs.getLast hne').W.isSome := by
    have hlast : accs.getLast hne' = accs[accs.length - 1]'(by
        have := List.length_pos_iff.mpr hne'; omega) := List.getLast_eq_getElem hne'
    rw [hlast]
    exact ((List.forall₂_iff_get.mp h1).2 (accs.length - 1) (by
      have := List.length_pos_iff.mpr hne'; omega) (by have := List.length_pos_iff.mpr hne'; omega)).2
  obtain ⟨W, hW⟩ := Option.isSome_iff_exists.mp hW
  rw [evaluate_collect, h2]
  simp only [hl, Option.bind_some, hW]
  exact ⟨_, rfl⟩

/-- **C45** Permuting the conditions permutes the results. -/
theorem evaluate_perm (bq : RootFinder α) (R : Rotor α) (cs cs' : List (Cond α)) (co : Bool) (o o' : EvalOut α)
    (h : (evaluate bq R cs co).2 = .ok o) (h' : (evaluate bq R cs' co).2 = .ok o') (hp : cs.Perm cs') :
    (cs.zip o.conds).Perm (cs'.zip o'.conds) := by
  let F : Cond α → Option (Cond α × CondOut α) := fun c => match (evaluate bq R [c] co).2 with
    | .ok o1 => o1.conds.head?.map fun x => (c, x)
    | .error _ => none
  have key : ∀ (cs : List (Cond α)) (xs : List (CondOut α)),
      List.Forall₂ (fun c x => ∃ o1, (evaluate bq R [c] co).2 = .ok o1 ∧ o1.conds = [x]) cs xs →
      cs.zip xs = cs.filterMap F := by
    intro cs xs hf
    induction hf with
    | nil => rfl
    | @cons c x cs xs h1 _ ih =>
      obtain ⟨o1, e1, e2⟩ := h1
      have : F c = some (c, x) := by simp only [F, e1, e2, List.head?_cons, Option.map_some]
      rw [List.zip_cons_cons, List.filterMap_cons_some this, ih]
  rw [key _ _ (evaluate_conditions bq R cs co o h), key _ _ (evaluate_conditions bq R cs' co o' h')]
  exact hp.filterMap _

/-- The hypotheses are met by the sample rotor: every list of conditions with nonzero speed can be evaluated. -/
theorem demoRotor_evaluate (cs : List (Cond ℝ)) (hne : cs ≠ []) (h : ∀ c ∈ cs, c.Omega ≠ 0) (co : Bool) :
    ∃ o, (evaluate demoBq demoRotor cs co).2 = .ok o := by
  refine evaluate_conditions_ok _ _ _ _ hne fun c hc => ?_
  obtain ⟨L, hL, _⟩ := distributedAeroLoads_finds demoBq demoBq_onlyValueError demoRotor c.Uinf c.Omega c.pitch
    (rad2deg (0 * (2 * Real.pi / 1) + 0)) (by simp [demoRotor]) rfl (by simpa [num_real] using h c hc)
  have haz : azimuthAngles (α := ℝ) demoRotor.nSector = [0 * (2 * Real.pi / 1) + 0] := by
    simp [azimuthAngles, arr, demoRotor, num_real]
  have hacc : ∃ a, condAcc demoBq demoRotor c = .ok a := by
    unfold condAcc
    rw [haz]
    unfold sectorLoop
    generalize distributedAeroLoads demoBq demoRotor c.Uinf c.Omega c.pitch
      (rad2deg (0 * (2 * Real.pi / 1) + 0)) = d at *
    obtain ⟨R', r⟩ := d
    simp only at hL
    subst hL
    exact ⟨_, rfl⟩
  obtain ⟨a, ha⟩ := hacc
  obtain ⟨W, hW⟩ := Option.isSome_iff_exists.mp ((condAcc_W ha).mpr (by simp [demoRotor]))
  exact ⟨⟨_, W⟩, (evaluate_single _ _ _ _ _).mpr ⟨a, ha, hW, rfl⟩⟩

example : ∃ o, (evaluate demoBq demoRotor [⟨10, 12, 0⟩, ⟨8, 9, 2⟩] true).2 = .ok o :=
  demoRotor_evaluate _ (by simp) (by simp) true

end Verif
