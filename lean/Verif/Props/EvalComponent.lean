import Verif.Props.LoadsComponent
import Verif.Props.DerivFlag
import Verif.Props.Scaling

/-!
# The evaluate component (C73, C84)
-/

namespace Verif

open Finset Filter Topology

/-! ## Specification -/

/-- The outputs of the component by name and row, with the quantity of `evaluate` that each reports. -/
noncomputable def evalOutputs : List (String × ℕ × (CondOut ℝ → Quant ℝ)) :=
  [("P", 0, fun x => x.P), ("Mb", 0, fun x => x.acc.Mb),
   ("Fhub", 0, fun x => x.acc.T), ("Fhub", 1, fun x => x.acc.Y), ("Fhub", 2, fun x => x.acc.Z),
   ("Mhub", 0, fun x => x.acc.Q), ("Mhub", 1, fun x => x.acc.My), ("Mhub", 2, fun x => x.acc.Mz),
   ("CP", 0, coefOf Coefs.CP), ("CMb", 0, coefOf Coefs.CMb),
   ("CFhub", 0, coefOf Coefs.CT), ("CFhub", 1, coefOf Coefs.CY), ("CFhub", 2, coefOf Coefs.CZ),
   ("CMhub", 0, coefOf Coefs.CQ), ("CMhub", 1, coefOf Coefs.CMy), ("CMhub", 2, coefOf Coefs.CMz)]

/-- The inputs of the component with the key of the analysis derivatives that belongs to each. -/
def evalInputs : List (String × String) :=
  [("precone", "dprecone"), ("tilt", "dtilt"), ("hub_height", "dhubHt"), ("Rhub", "dRhub"), ("Rtip", "dRtip"),
   ("precurveTip", "dprecurveTip"), ("presweepTip", "dpresweepTip"), ("yaw", "dyaw"), ("shearExp", "dshear"),
   ("V_load", "dUinf"), ("Omega_load", "dOmega"), ("pitch_load", "dpitch"), ("r", "dr"), ("chord", "dchord"),
   ("theta", "dtheta"), ("precurve", "dprecurve"), ("presweep", "dpresweep")]

/-- An output by name and row. -/
def EvalCompOut.get (o : EvalCompOut ℝ) (out : String) (k : ℕ) : ℝ :=
  match out with
  | "P" => o.P
  | "Mb" => o.Mb
  | "Fhub" => o.Fhub k
  | "Mhub" => o.Mhub k
  | "CP" => o.CP
  | "CMb" => o.CMb
  | "CFhub" => o.CFhub k
  | "CMhub" => o.CMhub k
  | _ => 0

/-- The component with the differentiable inputs replaced by those of the design. -/
noncomputable def EvalIn.withDesign (x : EvalIn ℝ) (D : RotorDesign) : EvalIn ℝ :=
  { blade := { x.blade with
      r := D.r, chord := D.chord, Rhub := D.Rhub, Rtip := D.Rtip, hub_height := D.hubHt, precone := D.precone,
      tilt := D.tilt, yaw := D.yaw, precurve := D.precurve, precurveTip := D.precurveTip, presweep := D.presweep,
      presweepTip := D.presweepTip, shearExp := D.shear }
    theta := D.theta, V_load := D.Uinf 0, Omega_load := D.Omega 0, pitch_load := D.pitch 0 }

/-- The change of row `k` of the output `out` that the Jacobian predicts for the velocity `V` of the inputs. -/
noncomputable def evalApply (n : ℕ) (J : Jac ℝ) (out : String) (V : RotorDesign) (k : ℕ) : ℝ :=
  J.at out "precone" k 0 * V.precone + J.at out "tilt" k 0 * V.tilt + J.at out "hub_height" k 0 * V.hubHt
  + J.at out "Rhub" k 0 * V.Rhub + J.at out "Rtip" k 0 * V.Rtip
  + J.at out "precurveTip" k 0 * V.precurveTip + J.at out "presweepTip" k 0 * V.presweepTip
  + J.at out "yaw" k 0 * V.yaw + J.at out "shearExp" k 0 * V.shear
  + J.at out "V_load" k 0 * V.Uinf 0 + J.at out "Omega_load" k 0 * V.Omega 0 + J.at out "pitch_load" k 0 * V.pitch 0
  + (∑ j ∈ range n, J.at out "r" k j * V.r j) + (∑ j ∈ range n, J.at out "chord" k j * V.chord j)
  + (∑ j ∈ range n, J.at out "theta" k j * V.theta j) + (∑ j ∈ range n, J.at out "precurve" k j * V.precurve j)
  + (∑ j ∈ range n, J.at out "presweep" k j * V.presweep j)

/-! ## Helpers -/

theorem jacBlocks3_ok {α : Type} [Num α] {out : String} {a b c : List (String × Mat α)} : ∀ {ks : List (String × String)},
    (∀ p ∈ ks, (∃ m, a.lookup p.2 = some m) ∧ (∃ m, b.lookup p.2 = some m) ∧ ∃ m, c.lookup p.2 = some m) →
    ∃ J, jacBlocks3 out a b c ks = .ok J
  | [], _ => ⟨[], rfl⟩
  | (inp, key) :: rest, h => by
    obtain ⟨⟨m1, h1⟩, ⟨m2, h2⟩, ⟨m3, h3⟩⟩ := h (inp, key) (by simp)
    obtain ⟨J, hJ⟩ := jacBlocks3_ok (out := out) (a := a) (b := b) (c := c) (ks := rest) fun p hp => h p (by simp [hp])
    exact ⟨_, by simp only [jacBlocks3, dictGet, h1, h2, h3, hJ, Bind.bind, Except.bind, pure, Except.pure]; rfl⟩

theorem jacBlocks3_lookup {α : Type} [Num α] {out : String} {a b c : List (String × Mat α)} :
    ∀ {ks : List (String × String)} {J : Jac α}, jacBlocks3 out a b c ks = .ok J →
      (∀ out' inp, out' ≠ out → J.lookup (out', inp) = none) ∧
      (∀ inp, ks.lookup inp = none → J.lookup (out, inp) = none) ∧
      ∀ inp key, ks.lookup inp = some key → ∃ m1 m2 m3, a.lookup key = some m1 ∧ b.lookup key = some m2 ∧
        c.lookup key = some m3 ∧ J.lookup (out, inp) = some (stack3 m1 m2 m3)
  | [], J, h => by
    cases h
    simp
  | (inp0, key0) :: rest, J, h => by
    unfold jacBlocks3 at h
    obtain ⟨m1, h1, h⟩ := bind_inv h
    obtain ⟨m2, h2, h⟩ := bind_inv h
    obtain ⟨m3, h3, h⟩ := bind_inv h
    obtain ⟨J', hJ', h⟩ := bind_inv h
    cases h
    have hd : ∀ {d : List (String × Mat α)} {m}, dictGet d key0 = .ok m → d.lookup key0 = some m := by
      intro d m hm
      unfold dictGet at hm
      split at hm
      · cases hm; assumption
      · cases hm
    obtain ⟨g1, g2, g3⟩ := jacBlocks3_lookup hJ'
    refine ⟨fun out' inp hne => ?_, fun inp hno => ?_, fun inp key hk => ?_⟩
    · rw [lookup_ne (by simp [hne])]
      exact g1 out' inp hne
    · by_cases e : inp = inp0
      · subst e
        rw [lookup_self] at hno
        cases hno
      · rw [lookup_ne e] at hno
        rw [lookup_ne (by simpa using e)]
        exact g2 inp hno
    · by_cases e : inp = inp0
      · subst e
        rw [lookup_self] at hk
        cases hk
        exact ⟨_, _, _, hd h1, hd h2, hd h3, lookup_self⟩
      · rw [lookup_ne e] at hk
        rw [lookup_ne (by simpa using e)]
        exact g3 inp key hk

theorem evalKeys_lookup {α : Type} [Num α] {n : ℕ} {qs : List (Quant α)} : ∀ p ∈ evalKeys, ∃ m, (rotorDict n qs).lookup p.2 = some m := by
  intro p hp
  simp only [evalKeys, List.mem_cons, List.not_mem_nil, or_false] at hp
  rcases hp with rfl | rfl | rfl | rfl | rfl | rfl | rfl | rfl | rfl | rfl | rfl | rfl | rfl | rfl | rfl | rfl | rfl <;>
    exact ⟨_, rfl⟩

/-- The Jacobian of one output block. -/
theorem evalBlock_ok {out : String} {n : ℕ} {o : EvalOut ℝ} {f : CondOut ℝ → Quant ℝ} :
    ∃ J, jacBlocks out id (outputDict n o f) evalKeys = .ok J :=
  jacBlocks_ok evalKeys_lookup

theorem evalBlock3_ok {out : String} {n : ℕ} {o : EvalOut ℝ} {f g h : CondOut ℝ → Quant ℝ} :
    ∃ J, jacBlocks3 out (outputDict n o f) (outputDict n o g) (outputDict n o h) evalKeys = .ok J :=
  jacBlocks3_ok fun p hp => ⟨evalKeys_lookup p hp, evalKeys_lookup p hp, evalKeys_lookup p hp⟩

/-- What a successful analysis consists of. -/
theorem EvalIn.run_inv {α : Type} [Num α] {fit : SplineFit α} {bq : RootFinder α} {x : EvalIn α} {d : Bool} {o : EvalOut α}
    (h : x.run fit bq d = .ok o) : ∃ afs R, x.blade.af.airfoils fit 0 x.blade.n = .ok afs ∧
      (x.blade.args x.theta afs d).build = .ok R ∧
      (evaluate bq R [⟨x.V_load, x.Omega_load, x.pitch_load⟩] true).2 = .ok o := by
  unfold EvalIn.run at h
  obtain ⟨afs, h1, h⟩ := bind_inv h
  obtain ⟨R, h2, h⟩ := bind_inv h
  exact ⟨afs, R, h1, h2, h⟩

/-- A single condition with coefficients. -/
theorem evaluate_one {α : Type} [Num α] {bq : RootFinder α} {R : Rotor α} {c : Cond α} {o : EvalOut α} (h : (evaluate bq R [c] true).2 = .ok o) :
    ∃ acc, condAcc bq R c = .ok acc ∧ o.conds = [⟨acc, power acc.Q c.Omega, some (coefs R c acc)⟩] := by
  obtain ⟨acc, h1, -, h2⟩ := (evaluate_single _ _ _ _ _).mp h
  exact ⟨acc, h1, h2⟩

theorem build_flag {x : CCArgs ℝ} {R : Rotor ℝ} (h : x.build = .ok R) (d : Bool) :
    ({ x with derivatives := d } : CCArgs ℝ).build = .ok { R with derivatives := d } := by
  unfold CCArgs.build at h ⊢
  by_cases h0 : x.n = 0
  · simp [h0, throw, throwThe, MonadExceptOf.throw, Bind.bind, Except.bind] at h
  · simp only [h0, if_false] at h ⊢
    obtain ⟨v1, e1, h⟩ := bind_inv h
    obtain ⟨v2, e2, h⟩ := bind_inv h
    obtain ⟨v3, e3, h⟩ := bind_inv h
    obtain ⟨v4, e4, h⟩ := bind_inv h
    cases h
    simp only [e1, e2, e3, e4, Bind.bind, Except.bind, pure, Except.pure]

/-- The analysis of `compute` returns the numbers of that of `compute_partials`. -/
theorem EvalIn.run_flag {fit : SplineFit ℝ} {bq : RootFinder ℝ} {x : EvalIn ℝ} {o : EvalOut ℝ}
    (h : x.run fit bq true = .ok o) : ∃ o', x.run fit bq false = .ok o' ∧ List.Forall₂ SameNumbers o.conds o'.conds := by
  obtain ⟨afs, R, h1, h2, h3⟩ := EvalIn.run_inv h
  obtain ⟨o', h4, -, h5⟩ := evaluate_values_flag bq R _ _ o h3
  refine ⟨o', ?_, h5⟩
  have h6 : (x.blade.args x.theta afs false).build = .ok { R with derivatives := false } := build_flag h2 false
  unfold EvalIn.run
  simp only [h1, h6, Bind.bind, Except.bind]
  exact h4

/-! ## C73 -/

/-- **C73** Whenever the analysis with derivatives returns, `compute` and `compute_partials` return; the outputs are power, blade
root moment, `(T, Y, Z)`, `(Q, My, Mz)` and their coefficients; the Jacobian entry of every output row and input is the entry of
the derivative dictionary of that quantity under the key of that input; it has no other entries. -/
theorem evaluate_component (fit : SplineFit ℝ) (bq : RootFinder ℝ) (x : EvalIn ℝ) (o : EvalOut ℝ) (h : x.run fit bq true = .ok o) :
    ∃ out J, x.compute fit bq = .ok out ∧ x.partials fit bq = .ok J ∧
      (∀ q ∈ evalOutputs, out.get q.1 q.2.1 = outputAt o q.2.2 0 ∧
        ∀ p ∈ evalInputs, ∀ j, J.at q.1 p.1 q.2.1 j = dictAt (outputDict x.blade.n o q.2.2) p.2 0 j) ∧
      ∀ name inp, inp ∉ evalInputs.map Prod.fst → ∀ i j, J.at name inp i j = 0 := by
  obtain ⟨o', h1, h2⟩ := EvalIn.run_flag h
  obtain ⟨afs, R, -, -, h3⟩ := EvalIn.run_inv h
  obtain ⟨acc, -, hc⟩ := evaluate_one h3
  set c : CondOut ℝ := ⟨acc, power acc.Q x.Omega_load, some (coefs R ⟨x.V_load, x.Omega_load, x.pitch_load⟩ acc)⟩ with hcdef
  obtain ⟨C, hC⟩ : ∃ C, c.C = some C := ⟨_, rfl⟩
  rw [hc] at h2
  obtain ⟨c', hc', hs⟩ : ∃ c', o'.conds = [c'] ∧ SameNumbers c c' := by
    generalize o'.conds = l at h2
    cases h2 with
    | cons h1 h2 => cases h2; exact ⟨_, rfl, h1⟩
  obtain ⟨C', hC'⟩ : ∃ C', c'.C = some C' := by
    have := hs.CP
    rw [hC] at this
    cases e : c'.C with
    | none => rw [e] at this; cases this
    | some C' => exact ⟨C', rfl⟩
  obtain ⟨jP, hP⟩ := evalBlock_ok (out := "P") (n := x.blade.n) (o := o) (f := CondOut.P)
  obtain ⟨jF, hF⟩ := evalBlock3_ok (out := "Fhub") (n := x.blade.n) (o := o) (f := fun x => x.acc.T) (g := fun x => x.acc.Y)
    (h := fun x => x.acc.Z)
  obtain ⟨jM, hM⟩ := evalBlock3_ok (out := "Mhub") (n := x.blade.n) (o := o) (f := fun x => x.acc.Q) (g := fun x => x.acc.My)
    (h := fun x => x.acc.Mz)
  obtain ⟨jB, hB⟩ := evalBlock_ok (out := "Mb") (n := x.blade.n) (o := o) (f := fun x => x.acc.Mb)
  obtain ⟨jCP, hCP⟩ := evalBlock_ok (out := "CP") (n := x.blade.n) (o := o) (f := coefOf Coefs.CP)
  obtain ⟨jCF, hCF⟩ := evalBlock3_ok (out := "CFhub") (n := x.blade.n) (o := o) (f := coefOf Coefs.CT) (g := coefOf Coefs.CY)
    (h := coefOf Coefs.CZ)
  obtain ⟨jCM, hCM⟩ := evalBlock3_ok (out := "CMhub") (n := x.blade.n) (o := o) (f := coefOf Coefs.CQ) (g := coefOf Coefs.CMy)
    (h := coefOf Coefs.CMz)
  obtain ⟨jCB, hCB⟩ := evalBlock_ok (out := "CMb") (n := x.blade.n) (o := o) (f := coefOf Coefs.CMb)
  have hJ : x.partials fit bq = .ok (jP ++ (jF ++ (jM ++ (jB ++ (jCP ++ (jCF ++ (jCM ++ jCB))))))) := by
    unfold EvalIn.partials
    simp only [h, hc, pyFirst, hC, Bind.bind, Except.bind, pure, Except.pure, List.map_cons, List.map_nil]
    simp only [outputDict, hc, List.map_cons, List.map_nil, coefOf, hC, Option.map_some, Option.getD_some] at hP hF hM hB hCP hCF hCM hCB
    simp only [hP, hF, hM, hB, hCP, hCF, hCM, hCB]
  have hO : x.compute fit bq = .ok {
      P := c'.P.val, Mb := c'.acc.Mb.val, CP := C'.CP.val, CMb := C'.CMb.val
      Fhub := vec3 c'.acc.T.val c'.acc.Y.val c'.acc.Z.val
      Mhub := vec3 c'.acc.Q.val c'.acc.My.val c'.acc.Mz.val
      CFhub := vec3 C'.CT.val C'.CY.val C'.CZ.val
      CMhub := vec3 C'.CQ.val C'.CMy.val C'.CMz.val } := by
    unfold EvalIn.compute
    simp only [h1, hc', pyFirst, hC', Bind.bind, Except.bind, pure, Except.pure]
  have hat : ∀ f, outputAt o f 0 = (f c).val := by
    intro f
    simp only [outputAt, hc, List.getElem?_cons_zero, Option.map_some, Option.getD_some]
  obtain ⟨P1, P2, P3⟩ := jacBlocks_lookup hP
  obtain ⟨F1, F2, F3⟩ := jacBlocks3_lookup hF
  obtain ⟨M1, M2, M3⟩ := jacBlocks3_lookup hM
  obtain ⟨B1, B2, B3⟩ := jacBlocks_lookup hB
  obtain ⟨CP1, CP2, CP3⟩ := jacBlocks_lookup hCP
  obtain ⟨CF1, CF2, CF3⟩ := jacBlocks3_lookup hCF
  obtain ⟨CM1, CM2, CM3⟩ := jacBlocks3_lookup hCM
  obtain ⟨CB1, CB2, CB3⟩ := jacBlocks_lookup hCB
  refine ⟨_, _, hO, hJ, ?_, ?_⟩
  · intro q hq
    have hv : ∀ (g : Coefs ℝ → Quant ℝ), c.C.map (fun C => (g C).val) = c'.C.map (fun C => (g C).val) → (coefOf g c).val = (g C').val := by
      intro g e
      rw [hC, hC'] at e
      simp only [coefOf, hC, Option.map_some, Option.getD_some]
      simpa using e
    have hkey : ∀ p ∈ evalInputs, evalKeys.lookup p.1 = some p.2 := by
      intro p hp
      simp only [evalInputs, List.mem_cons, List.not_mem_nil, or_false] at hp
      rcases hp with rfl | rfl | rfl | rfl | rfl | rfl | rfl | rfl | rfl | rfl | rfl | rfl | rfl | rfl | rfl | rfl | rfl <;> rfl
    simp only [evalOutputs, List.mem_cons, List.not_mem_nil, or_false] at hq
    rcases hq with rfl | rfl | rfl | rfl | rfl | rfl | rfl | rfl | rfl | rfl | rfl | rfl | rfl | rfl | rfl | rfl
    · refine ⟨by rw [hat]; exact hs.P.symm, fun p hp j => ?_⟩
      obtain ⟨m, e1, e2⟩ := P3 _ _ (hkey p hp)
      rw [Jac.at, List.lookup_append, e2, dictAt, e1]
      rfl
    · refine ⟨by rw [hat]; exact hs.Mb.symm, fun p hp j => ?_⟩
      obtain ⟨m, e1, e2⟩ := B3 _ _ (hkey p hp)
      rw [Jac.at, List.lookup_append, P1 _ _ (by decide), List.lookup_append, F1 _ _ (by decide), List.lookup_append,
        M1 _ _ (by decide), List.lookup_append, e2, dictAt, e1]
      rfl
    · refine ⟨by rw [hat]; exact hs.T.symm, fun p hp j => ?_⟩
      obtain ⟨m1, m2, m3, e1, e2, e3, e4⟩ := F3 _ _ (hkey p hp)
      rw [Jac.at, List.lookup_append, P1 _ _ (by decide), List.lookup_append, e4, dictAt, e1]
      rfl
    · refine ⟨by rw [hat]; exact hs.Y.symm, fun p hp j => ?_⟩
      obtain ⟨m1, m2, m3, e1, e2, e3, e4⟩ := F3 _ _ (hkey p hp)
      rw [Jac.at, List.lookup_append, P1 _ _ (by decide), List.lookup_append, e4, dictAt, e2]
      rfl
    · refine ⟨by rw [hat]; exact hs.Z.symm, fun p hp j => ?_⟩
      obtain ⟨m1, m2, m3, e1, e2, e3, e4⟩ := F3 _ _ (hkey p hp)
      rw [Jac.at, List.lookup_append, P1 _ _ (by decide), List.lookup_append, e4, dictAt, e3]
      rfl
    · refine ⟨by rw [hat]; exact hs.Q.symm, fun p hp j => ?_⟩
      obtain ⟨m1, m2, m3, e1, e2, e3, e4⟩ := M3 _ _ (hkey p hp)
      rw [Jac.at, List.lookup_append, P1 _ _ (by decide), List.lookup_append, F1 _ _ (by decide), List.lookup_append, e4, dictAt, e1]
      rfl
    · refine ⟨by rw [hat]; exact hs.My.symm, fun p hp j => ?_⟩
      obtain ⟨m1, m2, m3, e1, e2, e3, e4⟩ := M3 _ _ (hkey p hp)
      rw [Jac.at, List.lookup_append, P1 _ _ (by decide), List.lookup_append, F1 _ _ (by decide), List.lookup_append, e4, dictAt, e2]
      rfl
    · refine ⟨by rw [hat]; exact hs.Mz.symm, fun p hp j => ?_⟩
      obtain ⟨m1, m2, m3, e1, e2, e3, e4⟩ := M3 _ _ (hkey p hp)
      rw [Jac.at, List.lookup_append, P1 _ _ (by decide), List.lookup_append, F1 _ _ (by decide), List.lookup_append, e4, dictAt, e3]
      rfl
    · refine ⟨by rw [hat, hv _ hs.CP]; rfl, fun p hp j => ?_⟩
      obtain ⟨m, e1, e2⟩ := CP3 _ _ (hkey p hp)
      rw [Jac.at, List.lookup_append, P1 _ _ (by decide), List.lookup_append, F1 _ _ (by decide), List.lookup_append,
        M1 _ _ (by decide), List.lookup_append, B1 _ _ (by decide), List.lookup_append, e2, dictAt, e1]
      rfl
    · refine ⟨by rw [hat, hv _ hs.CMb]; rfl, fun p hp j => ?_⟩
      obtain ⟨m, e1, e2⟩ := CB3 _ _ (hkey p hp)
      rw [Jac.at, List.lookup_append, P1 _ _ (by decide), List.lookup_append, F1 _ _ (by decide), List.lookup_append,
        M1 _ _ (by decide), List.lookup_append, B1 _ _ (by decide), List.lookup_append, CP1 _ _ (by decide), List.lookup_append,
        CF1 _ _ (by decide), List.lookup_append, CM1 _ _ (by decide), e2, dictAt, e1]
      rfl
    · refine ⟨by rw [hat, hv _ hs.CT]; rfl, fun p hp j => ?_⟩
      obtain ⟨m1, m2, m3, e1, e2, e3, e4⟩ := CF3 _ _ (hkey p hp)
      rw [Jac.at, List.lookup_append, P1 _ _ (by decide), List.lookup_append, F1 _ _ (by decide), List.lookup_append,
        M1 _ _ (by decide), List.lookup_append, B1 _ _ (by decide), List.lookup_append, CP1 _ _ (by decide), List.lookup_append,
        e4, dictAt, e1]
      rfl
    · refine ⟨by rw [hat, hv _ hs.CY]; rfl, fun p hp j => ?_⟩
      obtain ⟨m1, m2, m3, e1, e2, e3, e4⟩ := CF3 _ _ (hkey p hp)
      rw [Jac.at, List.lookup_append, P1 _ _ (by decide), List.lookup_append, F1 _ _ (by decide), List.lookup_append,
        M1 _ _ (by decide), List.lookup_append, B1 _ _ (by decide), List.lookup_append, CP1 _ _ (by decide), List.lookup_append,
        e4, dictAt, e2]
      rfl
    · refine ⟨by rw [hat, hv _ hs.CZ]; rfl, fun p hp j => ?_⟩
      obtain ⟨m1, m2, m3, e1, e2, e3, e4⟩ := CF3 _ _ (hkey p hp)
      rw [Jac.at, List.lookup_append, P1 _ _ (by decide), List.lookup_append, F1 _ _ (by decide), List.lookup_append,
        M1 _ _ (by decide), List.lookup_append, B1 _ _ (by decide), List.lookup_append, CP1 _ _ (by decide), List.lookup_append,
        e4, dictAt, e3]
      rfl
    · refine ⟨by rw [hat, hv _ hs.CQ]; rfl, fun p hp j => ?_⟩
      obtain ⟨m1, m2, m3, e1, e2, e3, e4⟩ := CM3 _ _ (hkey p hp)
      rw [Jac.at, List.lookup_append, P1 _ _ (by decide), List.lookup_append, F1 _ _ (by decide), List.lookup_append,
        M1 _ _ (by decide), List.lookup_append, B1 _ _ (by decide), List.lookup_append, CP1 _ _ (by decide), List.lookup_append,
        CF1 _ _ (by decide), List.lookup_append, e4, dictAt, e1]
      rfl
    · refine ⟨by rw [hat, hv _ hs.CMy]; rfl, fun p hp j => ?_⟩
      obtain ⟨m1, m2, m3, e1, e2, e3, e4⟩ := CM3 _ _ (hkey p hp)
      rw [Jac.at, List.lookup_append, P1 _ _ (by decide), List.lookup_append, F1 _ _ (by decide), List.lookup_append,
        M1 _ _ (by decide), List.lookup_append, B1 _ _ (by decide), List.lookup_append, CP1 _ _ (by decide), List.lookup_append,
        CF1 _ _ (by decide), List.lookup_append, e4, dictAt, e2]
      rfl
    · refine ⟨by rw [hat, hv _ hs.CMz]; rfl, fun p hp j => ?_⟩
      obtain ⟨m1, m2, m3, e1, e2, e3, e4⟩ := CM3 _ _ (hkey p hp)
      rw [Jac.at, List.lookup_append, P1 _ _ (by decide), List.lookup_append, F1 _ _ (by decide), List.lookup_append,
        M1 _ _ (by decide), List.lookup_append, B1 _ _ (by decide), List.lookup_append, CP1 _ _ (by decide), List.lookup_append,
        CF1 _ _ (by decide), List.lookup_append, e4, dictAt, e3]
      rfl
  · intro name inp hinp i j
    have hno : evalKeys.lookup inp = none := by
      simp only [evalInputs, List.map_cons, List.map_nil, List.mem_cons, List.not_mem_nil, or_false, not_or] at hinp
      obtain ⟨a1, a2, a3, a4, a5, a6, a7, a8, a9, a10, a11, a12, a13, a14, a15, a16, a17⟩ := hinp
      unfold evalKeys
      rw [lookup_ne a13, lookup_ne a14, lookup_ne a15, lookup_ne a4, lookup_ne a5, lookup_ne a3, lookup_ne a1, lookup_ne a2,
        lookup_ne a8, lookup_ne a9, lookup_ne a10, lookup_ne a11, lookup_ne a12, lookup_ne a16, lookup_ne a6, lookup_ne a17,
        lookup_ne a7]
      rfl
    have z : ∀ {J : Jac ℝ} {out : String}, (∀ out' inp, out' ≠ out → J.lookup (out', inp) = none) →
        (∀ inp, evalKeys.lookup inp = none → J.lookup (out, inp) = none) → J.lookup (name, inp) = none := by
      intro J out g1 g2
      by_cases e : name = out
      · subst e; exact g2 inp hno
      · exact g1 _ _ e
    rw [Jac.at, List.lookup_append, z P1 P2, List.lookup_append, z F1 F2, List.lookup_append, z M1 M2, List.lookup_append,
      z B1 B2, List.lookup_append, z CP1 CP2, List.lookup_append, z CF1 CF2, List.lookup_append, z CM1 CM2, z CB1 CB2]
    rfl

/-! ## C84 -/

/-- The object built from the inputs of a design near `t` is that of the design. -/
theorem build_design {x : EvalIn ℝ} {D : ℝ → RotorDesign} {V : RotorDesign} {t : ℝ} (hn : x.blade.n ≠ 0)
    (hV : RotorDesign.HasDeriv x.blade.n 1 D V t)
    (hhub : (D t).Rhub ≠ (D t).r 0) (htip : (D t).Rtip ≠ (D t).r (x.blade.n - 1))
    (hpc : ∀ᶠ s in 𝓝 t, FreeTip x.blade.n (D s).precurve (D s).precurveTip)
    (hps : ∀ᶠ s in 𝓝 t, FreeTip x.blade.n (D s).presweep (D s).presweepTip)
    (hax : ∀ᶠ s in 𝓝 t, ((D s).tilt = 0 ∧ (D s).yaw = 0 ∧ (D s).shear = 0) ↔ ((D t).tilt = 0 ∧ (D t).yaw = 0 ∧ (D t).shear = 0))
    {afs : List (CCAf ℝ)} {R : Rotor ℝ} {d : Bool}
    (hR : (((x.withDesign (D t)).blade).args (D t).theta afs d).build = .ok R) :
    ∀ᶠ s in 𝓝 t, (((x.withDesign (D s)).blade).args (D s).theta afs d).build = .ok ((D s).rotor R) := by
  have hc := hV.cond 0 (by norm_num) 0
  have c1 : ∀ᶠ s in 𝓝 t, (D s).Rhub ≠ (D s).r 0 :=
    hc.Rhub.continuousAt.ne_iff_eventually_ne (hc.r 0 (by omega)).continuousAt |>.mp hhub
  have c2 : ∀ᶠ s in 𝓝 t, (D s).Rtip ≠ (D s).r (x.blade.n - 1) :=
    hc.Rtip.continuousAt.ne_iff_eventually_ne (hc.r (x.blade.n - 1) (by omega)).continuousAt |>.mp htip
  have hi : ∀ s, (D s).Rhub ≠ (D s).r 0 → (D s).Rtip ≠ (D s).r (x.blade.n - 1) →
      FreeTip x.blade.n (D s).precurve (D s).precurveTip → FreeTip x.blade.n (D s).presweep (D s).presweepTip → _ :=
    fun s h1 h2 h3 h4 => build_interior (((x.withDesign (D s)).blade).args (D s).theta afs d) hn h1 h2 (D s).precurve (D s).presweep
      (D s).precurveTip (D s).presweepTip rfl rfl rfl rfl h3 h4
  have ht := hi t hhub htip hpc.self_of_nhds hps.self_of_nhds
  rw [ht] at hR
  have hR := (Except.ok.inj hR).symm
  have hpi : Real.pi / 180 ≠ 0 := by have := Real.pi_pos; positivity
  filter_upwards [c1, c2, hpc, hps, hax] with s h1 h2 h3 h4 h5
  rw [hi s h1 h2 h3 h4, hR]
  have e : (deg2rad (D s).tilt == 0 && deg2rad (D s).yaw == 0 && (D s).shear == 0)
      = (deg2rad (D t).tilt == 0 && deg2rad (D t).yaw == 0 && (D t).shear == 0) := by
    rw [Bool.eq_iff_iff]
    simp only [Bool.and_eq_true, num_real, decide_eq_true_eq, mul_eq_zero, hpi, or_false, and_assoc]
    exact h5
  simp only [RotorDesign.rotor, EvalIn.withDesign, BladeIn.args, e]
  simp only [real_deg2rad, num_real]

/-- The Jacobian of the component is exact for every output whose derivative dictionary is. -/
theorem evaluate_component_core (fit : SplineFit ℝ) (bq : RootFinder ℝ) (x : EvalIn ℝ) (D : ℝ → RotorDesign) (V : RotorDesign) (t : ℝ)
    (o : ℝ → EvalOut ℝ) (hrun : ∀ᶠ s in 𝓝 t, (x.withDesign (D s)).run fit bq true = .ok (o s))
    (out : ℝ → EvalCompOut ℝ) (hout : ∀ᶠ s in 𝓝 t, (x.withDesign (D s)).compute fit bq = .ok (out s))
    (J : Jac ℝ) (hJ : (x.withDesign (D t)).partials fit bq = .ok J) (q : String × ℕ × (CondOut ℝ → Quant ℝ)) (hq : q ∈ evalOutputs)
    (hd : HasDerivAt (fun s => outputAt (o s) q.2.2 0) (rotorApply x.blade.n 1 (outputDict x.blade.n (o t) q.2.2) V 0) t) :
    HasDerivAt (fun s => (out s).get q.1 q.2.1) (evalApply x.blade.n J q.1 V q.2.1) t := by
  obtain ⟨_, J', -, hJ', hall, -⟩ := evaluate_component fit bq _ _ hrun.self_of_nhds
  obtain rfl := Except.ok.inj (hJ'.symm.trans hJ)
  have hk := (hall q hq).2
  simp only [evalInputs, List.mem_cons, List.not_mem_nil, or_false, forall_eq_or_imp, forall_eq] at hk
  obtain ⟨k1, k2, k3, k4, k5, k6, k7, k8, k9, k10, k11, k12, k13, k14, k15, k16, k17⟩ := hk
  have e : evalApply x.blade.n J' q.1 V q.2.1 = rotorApply x.blade.n 1 (outputDict x.blade.n (o t) q.2.2) V 0 := by
    simp only [evalApply, rotorApply, k1, k2, k3, k4, k5, k6, k7, k8, k9, k10, k11, k12, k13, k14, k15, k16, k17, sum_range_one]
    rfl
  rw [e]
  refine hd.congr_of_eventuallyEq ?_
  filter_upwards [hrun, hout] with s h1 h2
  obtain ⟨out', _, h3, -, hall, -⟩ := evaluate_component fit bq _ _ h1
  obtain rfl := Except.ok.inj (h3.symm.trans h2)
  exact (hall q hq).1

theorem evaluate_component_call {fit : SplineFit ℝ} {bq : RootFinder ℝ} {x : EvalIn ℝ} {D : RotorDesign}
    {afs : List (CCAf ℝ)} (hafs : x.blade.af.airfoils fit 0 x.blade.n = .ok afs) {R : Rotor ℝ} {o : EvalOut ℝ}
    (hb : (((x.withDesign D).blade).args D.theta afs true).build = .ok (D.rotor R))
    (h : (x.withDesign D).run fit bq true = .ok o) : D.call bq R 1 true = .ok o := by
  obtain ⟨afs', R', h1, h2, h3⟩ := EvalIn.run_inv h
  obtain rfl := Except.ok.inj (hafs.symm.trans h1)
  obtain rfl := Except.ok.inj (hb.symm.trans h2)
  exact h3

/-- **C84** For a blade that ends neither at the hub nor at the tip and a state that does not change between axisymmetric and not:
the Jacobian of power, root moment, hub forces and hub moments is the derivative of the outputs along every curve of the inputs
the analysis differentiates (all continuous inputs but density and viscosity), given exact load dictionaries of the sectors
(`loads_dictionary`) and a regular blade. -/
theorem evaluate_component_jacobian_partial (fit : SplineFit ℝ) (bq : RootFinder ℝ) (x : EvalIn ℝ) (D : ℝ → RotorDesign)
    (V : RotorDesign) (t : ℝ) (hn : x.blade.n ≠ 0) (hV : RotorDesign.HasDeriv x.blade.n 1 D V t)
    (hhub : (D t).Rhub ≠ (D t).r 0) (htip : (D t).Rtip ≠ (D t).r (x.blade.n - 1))
    (hpc : ∀ᶠ s in 𝓝 t, FreeTip x.blade.n (D s).precurve (D s).precurveTip)
    (hps : ∀ᶠ s in 𝓝 t, FreeTip x.blade.n (D s).presweep (D s).presweepTip)
    (hax : ∀ᶠ s in 𝓝 t, ((D s).tilt = 0 ∧ (D s).yaw = 0 ∧ (D s).shear = 0) ↔ ((D t).tilt = 0 ∧ (D t).yaw = 0 ∧ (D t).shear = 0))
    (afs : List (CCAf ℝ)) (hafs : x.blade.af.airfoils fit 0 x.blade.n = .ok afs) (R : Rotor ℝ)
    (hR : (((x.withDesign (D t)).blade).args (D t).theta afs true).build = .ok R)
    (o : ℝ → EvalOut ℝ) (hrun : ∀ᶠ s in 𝓝 t, (x.withDesign (D s)).run fit bq true = .ok (o s))
    (out : ℝ → EvalCompOut ℝ) (hout : ∀ᶠ s in 𝓝 t, (x.withDesign (D s)).compute fit bq = .ok (out s))
    (L : ℝ → ℕ → LoadsOut ℝ)
    (hL : ∀ᶠ s in 𝓝 t, ∀ k < R.nSector, ((D s).cond 0 (k * (360 / R.nSector))).call bq R = .ok (L s k))
    (hload : ∀ k < R.nSector, ∀ i < x.blade.n,
      HasDerivAt (fun s => stationArr (L s k).stations SecLoads.Np i) (dictApply x.blade.n (L t k).dNp (V.cond 0 0) i) t ∧
      HasDerivAt (fun s => stationArr (L s k).stations SecLoads.Tp i) (dictApply x.blade.n (L t k).dTp (V.cond 0 0) i) t)
    (hreg : ((D t).blade (fun _ => 0) (fun _ => 0)).Regular x.blade.n) :
    ∃ J, (x.withDesign (D t)).partials fit bq = .ok J ∧
      ∀ q ∈ evalOutputs, q.1 ∈ ["P", "Mb", "Fhub", "Mhub"] →
        HasDerivAt (fun s => (out s).get q.1 q.2.1) (evalApply x.blade.n J q.1 V q.2.1) t := by
  obtain ⟨_, J, -, hJ, -⟩ := evaluate_component fit bq _ _ hrun.self_of_nhds
  obtain ⟨hRn, -, -, -, -, -, hder, -⟩ := build_data hR
  have hRn : R.n = x.blade.n := hRn
  have hcall : ∀ᶠ s in 𝓝 t, (D s).call bq R 1 true = .ok (o s) := by
    filter_upwards [build_design hn hV hhub htip hpc hps hax hR, hrun] with s h1 h2
    exact evaluate_component_call hafs h1 h2
  rw [← hRn] at hV hload hreg
  have hrd := rotor_dictionary bq R hder 1 true D V t hV o hcall 0 (by norm_num) L hL hload hreg
  have hpd := power_dictionary bq R 1 true D V t hV o hcall 0 (by norm_num) (hrd _ (by simp))
  simp only [List.mem_cons, List.not_mem_nil, or_false, forall_eq_or_imp, forall_eq] at hrd
  obtain ⟨dT, dY, dZ, dQ, dMy, dMz, dMb⟩ := hrd
  rw [hRn] at dT dY dZ dQ dMy dMz dMb hpd
  refine ⟨J, hJ, fun q hq hmem => evaluate_component_core fit bq x D V t o hrun out hout J hJ q hq ?_⟩
  simp only [evalOutputs, List.mem_cons, List.not_mem_nil, or_false] at hq
  rcases hq with rfl | rfl | rfl | rfl | rfl | rfl | rfl | rfl | rfl | rfl | rfl | rfl | rfl | rfl | rfl | rfl
  · exact hpd
  · exact dMb
  · exact dT
  · exact dY
  · exact dZ
  · exact dQ
  · exact dMy
  · exact dMz
  all_goals exact absurd hmem (by decide)

/-- **C84** Under the same conditions, with a rotor of non-zero density, wind speed, radius and rotor speed: the Jacobian of a
coefficient is its derivative where the force or moment is not zero. -/
theorem evaluate_component_coefficient_jacobian_partial (fit : SplineFit ℝ) (bq : RootFinder ℝ) (x : EvalIn ℝ) (D : ℝ → RotorDesign)
    (V : RotorDesign) (t : ℝ) (hn : x.blade.n ≠ 0) (hV : RotorDesign.HasDeriv x.blade.n 1 D V t)
    (hhub : (D t).Rhub ≠ (D t).r 0) (htip : (D t).Rtip ≠ (D t).r (x.blade.n - 1))
    (hpc : ∀ᶠ s in 𝓝 t, FreeTip x.blade.n (D s).precurve (D s).precurveTip)
    (hps : ∀ᶠ s in 𝓝 t, FreeTip x.blade.n (D s).presweep (D s).presweepTip)
    (hax : ∀ᶠ s in 𝓝 t, ((D s).tilt = 0 ∧ (D s).yaw = 0 ∧ (D s).shear = 0) ↔ ((D t).tilt = 0 ∧ (D t).yaw = 0 ∧ (D t).shear = 0))
    (afs : List (CCAf ℝ)) (hafs : x.blade.af.airfoils fit 0 x.blade.n = .ok afs) (R : Rotor ℝ)
    (hR : (((x.withDesign (D t)).blade).args (D t).theta afs true).build = .ok R)
    (o : ℝ → EvalOut ℝ) (hrun : ∀ᶠ s in 𝓝 t, (x.withDesign (D s)).run fit bq true = .ok (o s))
    (out : ℝ → EvalCompOut ℝ) (hout : ∀ᶠ s in 𝓝 t, (x.withDesign (D s)).compute fit bq = .ok (out s))
    (L : ℝ → ℕ → LoadsOut ℝ)
    (hL : ∀ᶠ s in 𝓝 t, ∀ k < R.nSector, ((D s).cond 0 (k * (360 / R.nSector))).call bq R = .ok (L s k))
    (hload : ∀ k < R.nSector, ∀ i < x.blade.n,
      HasDerivAt (fun s => stationArr (L s k).stations SecLoads.Np i) (dictApply x.blade.n (L t k).dNp (V.cond 0 0) i) t ∧
      HasDerivAt (fun s => stationArr (L s k).stations SecLoads.Tp i) (dictApply x.blade.n (L t k).dTp (V.cond 0 0) i) t)
    (hreg : ((D t).blade (fun _ => 0) (fun _ => 0)).Regular x.blade.n)
    (hrho : x.blade.rho ≠ 0) (hU : (D t).Uinf 0 ≠ 0) (hrad : (D t).radius ≠ 0) (hOm : (D t).Omega 0 ≠ 0) :
    ∃ J, (x.withDesign (D t)).partials fit bq = .ok J ∧
      ∀ p ∈ [("CP", "Mhub", 0), ("CMb", "Mb", 0), ("CFhub", "Fhub", 0), ("CFhub", "Fhub", 1), ("CFhub", "Fhub", 2), ("CMhub", "Mhub", 0),
          ("CMhub", "Mhub", 1), ("CMhub", "Mhub", 2)], (out t).get p.2.1 p.2.2 ≠ 0 →
        HasDerivAt (fun s => (out s).get p.1 p.2.2) (evalApply x.blade.n J p.1 V p.2.2) t := by
  obtain ⟨out', J, hot, hJ, hall, -⟩ := evaluate_component fit bq _ _ hrun.self_of_nhds
  obtain rfl := Except.ok.inj (hot.symm.trans hout.self_of_nhds)
  obtain ⟨hRn, -, hRrho, -, -, -, hder, -⟩ := build_data hR
  have hRn : R.n = x.blade.n := hRn
  have hRrho : R.rho = x.blade.rho := hRrho
  have hcall : ∀ᶠ s in 𝓝 t, (D s).call bq R 1 true = .ok (o s) := by
    filter_upwards [build_design hn hV hhub htip hpc hps hax hR, hrun] with s h1 h2
    exact evaluate_component_call hafs h1 h2
  rw [← hRn] at hV hload hreg
  rw [← hRrho] at hrho
  have hrd := rotor_dictionary bq R hder 1 true D V t hV o hcall 0 (by norm_num) L hL hload hreg
  have hF := fun f g hfg => force_coefficient_dictionary bq R 1 D V t hV o hcall 0 (by norm_num) hrho hU hrad f g hfg
  have hM := fun f g hfg => moment_coefficient_dictionary bq R 1 D V t hV o hcall 0 (by norm_num) hrho hU hrad f g hfg
  have hP := power_coefficient_dictionary bq R 1 D V t hV o hcall 0 (by norm_num) hrho hU hrad
  simp only [List.mem_cons, List.not_mem_nil, or_false, forall_eq_or_imp, forall_eq] at hrd
  obtain ⟨dT, dY, dZ, dQ, dMy, dMz, dMb⟩ := hrd
  have core := fun q hq => evaluate_component_core fit bq x D V t o hrun out hout J hJ q hq
  rw [← hRn] at core
  refine ⟨J, hJ, fun p hp hne => ?_⟩
  rw [← hRn]
  simp only [List.mem_cons, List.not_mem_nil, or_false] at hp
  rcases hp with rfl | rfl | rfl | rfl | rfl | rfl | rfl | rfl
  · have hne' := (hall ("Mhub", 0, fun x => x.acc.Q) (by simp [evalOutputs])).1 ▸ hne
    exact core ("CP", 0, coefOf Coefs.CP) (by simp [evalOutputs]) (hP dQ hne' hOm)
  · have hne' := (hall ("Mb", 0, fun x => x.acc.Mb) (by simp [evalOutputs])).1 ▸ hne
    exact core ("CMb", 0, coefOf Coefs.CMb) (by simp [evalOutputs]) (hM _ _ (by simp) dMb hne')
  · have hne' := (hall ("Fhub", 0, fun x => x.acc.T) (by simp [evalOutputs])).1 ▸ hne
    exact core ("CFhub", 0, coefOf Coefs.CT) (by simp [evalOutputs]) (hF _ _ (by simp) dT hne')
  · have hne' := (hall ("Fhub", 1, fun x => x.acc.Y) (by simp [evalOutputs])).1 ▸ hne
    exact core ("CFhub", 1, coefOf Coefs.CY) (by simp [evalOutputs]) (hF _ _ (by simp) dY hne')
  · have hne' := (hall ("Fhub", 2, fun x => x.acc.Z) (by simp [evalOutputs])).1 ▸ hne
    exact core ("CFhub", 2, coefOf Coefs.CZ) (by simp [evalOutputs]) (hF _ _ (by simp) dZ hne')
  · have hne' := (hall ("Mhub", 0, fun x => x.acc.Q) (by simp [evalOutputs])).1 ▸ hne
    exact core ("CMhub", 0, coefOf Coefs.CQ) (by simp [evalOutputs]) (hM _ _ (by simp) dQ hne')
  · have hne' := (hall ("Mhub", 1, fun x => x.acc.My) (by simp [evalOutputs])).1 ▸ hne
    exact core ("CMhub", 1, coefOf Coefs.CMy) (by simp [evalOutputs]) (hM _ _ (by simp) dMy hne')
  · have hne' := (hall ("Mhub", 2, fun x => x.acc.Mz) (by simp [evalOutputs])).1 ▸ hne
    exact core ("CMhub", 2, coefOf Coefs.CMz) (by simp [evalOutputs]) (hM _ _ (by simp) dMz hne')

/-! A component and a curve of inputs meeting the hypotheses: the tip offsets change. -/

/-- Airfoils beyond the span do not matter. -/
theorem loads_af (bq : RootFinder ℝ) (R : Rotor ℝ) (af : ℕ → AirfoilI ℝ) (haf : ∀ i < R.n, af i = R.af i) (U Omega pitch az : ℝ) :
    (distributedAeroLoads bq { R with af := af } U Omega pitch az).2 = (distributedAeroLoads bq R U Omega pitch az).2 := by
  have hs : ∀ pitch Omega V, solveStations bq { R with af := af } pitch Omega V R.n = solveStations bq R pitch Omega V R.n := fun pitch Omega V =>
    solveStations_congr fun i hi => SameCore.solveStation (S := { R with af := af }) (R := R)
      ⟨rfl, rfl, rfl, rfl, rfl, rfl, rfl, rfl⟩ bq _ _ _ i rfl rfl (haf i hi) rfl (fun _ => rfl)
  rw [loads_snd, loads_snd]
  simp only [hs]
  rfl

theorem condAcc_af {bq : RootFinder ℝ} {R : Rotor ℝ} {af : ℕ → AirfoilI ℝ} (haf : ∀ i < R.n, af i = R.af i) {c : Cond ℝ} {a : RotorAcc ℝ}
    (h : condAcc bq R c = .ok a) : ∃ a', condAcc bq { R with af := af } c = .ok a' ∧ a'.T.val = a.T.val := by
  have hk := (condAcc_ok_iff bq R c).mp ⟨a, h⟩
  obtain ⟨a', h'⟩ := (condAcc_ok_iff bq { R with af := af } c).mpr fun k hk' => by
    obtain ⟨L, hL⟩ := hk k hk'
    exact ⟨L, by rw [loads_af bq R af haf]; exact hL⟩
  obtain ⟨L, e1, e2, -⟩ := condAcc_sum h
  obtain ⟨L', e1', e2', -⟩ := condAcc_sum h'
  refine ⟨a', h', ?_⟩
  have hL : ∀ k < R.nSector, L' k = L k := by
    intro k hk
    have := e1' k hk
    rw [loads_af bq R af haf] at this
    exact Except.ok.inj (this.symm.trans (e1 k hk))
  have hval : ∀ (R' : Rotor ℝ) J L v w, (bladeQuant R' J L v w).val = v := by
    intro R' J L v w
    simp only [bladeQuant]
    generalize (if R'.derivatives = true then J else none) = j
    cases j <;> rfl
  rw [e2, e2']
  simp only [Quant.sum, Quant.map2, hval]
  refine sum_congr rfl fun k hk => ?_
  rw [hL k (mem_range.mp hk)]
  rfl

/-- The inputs of the blade `plainRotor`. -/
noncomputable def tipEval : EvalIn ℝ := ⟨plainBlade, fun _ => 0, 10, 12, 0⟩

theorem tipEval_build (s : ℝ) (afs : List (CCAf ℝ)) : (((tipEval.withDesign (tipCurve s)).blade).args (tipCurve s).theta afs true).build
    = .ok ((tipCurve s).rotor { tipRotor with af := afList afs }) := by
  rw [build_interior _ (by simp [BladeIn.args, EvalIn.withDesign, tipEval, plainBlade])
    (by norm_num [BladeIn.args, EvalIn.withDesign, tipEval, plainBlade, tipCurve])
    (by norm_num [BladeIn.args, EvalIn.withDesign, tipEval, plainBlade, tipCurve]) (fun _ => 0) (fun _ => 0) s (2 * s) rfl rfl rfl rfl
    (.inr rfl) (.inr rfl)]
  simp [BladeIn.args, EvalIn.withDesign, tipEval, plainBlade, tipCurve, tipRotor, plainRotor, demoRotor, num_real, real_deg2rad,
    RotorDesign.rotor]

theorem tipEval_af {afs : List (CCAf ℝ)} (h : ∀ i < 3, afList afs i = plainAirfoil) (R : Rotor ℝ) (hn : R.n = 3)
    (haf : R.af = fun _ => plainAirfoil) : ∀ i < R.n, afList afs i = R.af i := by
  intro i hi
  rw [haf, h i (hn ▸ hi)]

/-- The analysis returns along the curve, with a positive thrust at its start. -/
theorem tipEval_run : ∃ (o : ℝ → EvalOut ℝ) (afs : List (CCAf ℝ)), plainTables.airfoils cornerFit 0 3 = .ok afs ∧
    (∀ i < 3, afList afs i = plainAirfoil) ∧
    (∀ s, (tipEval.withDesign (tipCurve s)).run cornerFit plainBq true = .ok (o s)) ∧ 0 < outputAt (o 0) (fun x => x.acc.T) 0 := by
  obtain ⟨afs, g1, -, g3⟩ := plainTables_airfoils 3
  obtain ⟨o2, L, ho2, hL⟩ := tipCurve_calls 2 (by norm_num)
  have hacc : ∀ s, ∃ a, condAcc plainBq ((tipCurve s).rotor { tipRotor with af := afList afs }) ⟨10, 12, 0⟩ = .ok a ∧
      a.T.val = outputAt (o2 s) (fun x => x.acc.T) 1 := by
    intro s
    obtain ⟨x, hx, ha, -⟩ := RotorDesign.entry (ho2 s) (m := 1) (by norm_num)
    obtain ⟨a', h1, h2⟩ := condAcc_af (af := afList afs) (tipEval_af g3 _ rfl rfl) ha
    refine ⟨a', h1, ?_⟩
    rw [h2]
    simp only [outputAt, hx, Option.map_some, Option.getD_some]
  have hrun : ∀ s, ∃ o, (tipEval.withDesign (tipCurve s)).run cornerFit plainBq true = .ok o ∧
      outputAt o (fun x => x.acc.T) 0 = outputAt (o2 s) (fun x => x.acc.T) 1 := by
    intro s
    obtain ⟨a, h1, h2⟩ := hacc s
    obtain ⟨W, hW⟩ := Option.isSome_iff_exists.mp ((condAcc_W h1).mpr (by simp [RotorDesign.rotor, tipRotor, plainRotor, demoRotor]))
    obtain ⟨o, he, hc⟩ : ∃ o, (evaluate plainBq ((tipCurve s).rotor { tipRotor with af := afList afs }) [⟨10, 12, 0⟩] true).2 = .ok o ∧
        o.conds = [⟨a, power a.Q 12, some (coefs ((tipCurve s).rotor { tipRotor with af := afList afs }) ⟨10, 12, 0⟩ a)⟩] :=
      ⟨⟨_, W⟩, (evaluate_single _ _ _ _ _).mpr ⟨a, h1, hW, rfl⟩, rfl⟩
    refine ⟨o, ?_, ?_⟩
    · unfold EvalIn.run
      have e1 : (tipEval.withDesign (tipCurve s)).blade.af.airfoils cornerFit 0 (tipEval.withDesign (tipCurve s)).blade.n = .ok afs := g1
      have e2 : ((tipEval.withDesign (tipCurve s)).blade.args (tipEval.withDesign (tipCurve s)).theta afs true).build = _ := tipEval_build s afs
      simp only [e1, e2, Bind.bind, Except.bind]
      exact he
    · rw [← h2]
      simp [outputAt, hc]
  choose o ho using hrun
  exact ⟨o, afs, g1, g3, fun s => (ho s).1, by rw [(ho 0).2]; exact tipCurve_T_pos ho2⟩

example : ∃ (o : ℝ → EvalOut ℝ) (out : ℝ → EvalCompOut ℝ) (J : Jac ℝ),
    (∀ s, (tipEval.withDesign (tipCurve s)).run cornerFit plainBq true = .ok (o s)) ∧
    (∀ s, (tipEval.withDesign (tipCurve s)).compute cornerFit plainBq = .ok (out s)) ∧
    (tipEval.withDesign (tipCurve 0)).partials cornerFit plainBq = .ok J ∧
    HasDerivAt (fun s => (out s).get "Fhub" 0) (evalApply 3 J "Fhub" tipVel 0) 0 ∧
    HasDerivAt (fun s => (out s).get "CFhub" 0) (evalApply 3 J "CFhub" tipVel 0) 0 := by
  obtain ⟨o, afs, g1, g3, ho, hpos⟩ := tipEval_run
  have hout : ∀ s, ∃ out, (tipEval.withDesign (tipCurve s)).compute cornerFit plainBq = .ok out := fun s =>
    (evaluate_component _ _ _ _ (ho s)).imp fun out h => h.choose_spec.1
  choose out hout using hout
  obtain ⟨-, L, -, hL⟩ := tipCurve_calls 1 (by norm_num)
  set R : Rotor ℝ := (tipCurve 0).rotor { tipRotor with af := afList afs } with hRdef
  have hns : R.nSector = 1 := rfl
  have hLs : ∀ s k, k < R.nSector → ((tipCurve s).cond 0 (k * (360 / R.nSector))).call plainBq R = .ok L := by
    intro s k hk
    obtain rfl : k = 0 := by omega
    have h1 := hL s 0
    rw [Design.call] at h1 ⊢
    rw [← h1, ← loads_af _ (((tipCurve s).cond 0 0).rotor tipRotor) (afList afs) (tipEval_af g3 _ rfl rfl), Nat.cast_zero, zero_mul,
      ← loads_frame plainBq { (((tipCurve s).cond 0 0).rotor tipRotor) with af := afList afs } R.rotorR R.precurveTip R.presweepTip R.nSector]
    rfl
  have hload : ∀ k < R.nSector, ∀ i < 3,
      HasDerivAt (fun _ : ℝ => stationArr L.stations SecLoads.Np i) (dictApply 3 L.dNp (tipVel.cond 0 0) i) 0 ∧
      HasDerivAt (fun _ : ℝ => stationArr L.stations SecLoads.Tp i) (dictApply 3 L.dTp (tipVel.cond 0 0) i) 0 := by
    intro k _ i _
    have h0 : ∀ d, dictApply 3 d (tipVel.cond 0 0) i = 0 := by
      intro d
      simp [dictApply, RotorDesign.cond, tipVel]
    simp only [h0]
    exact ⟨hasDerivAt_const _ _, hasDerivAt_const _ _⟩
  obtain ⟨J, hJ, hd⟩ := evaluate_component_jacobian_partial cornerFit plainBq tipEval tipCurve tipVel 0 (by simp [tipEval, plainBlade])
    (tipCurve_deriv 1 0) (by norm_num [tipCurve]) (by norm_num [tipCurve, tipEval, plainBlade]) (Eventually.of_forall fun _ => .inr rfl)
    (Eventually.of_forall fun _ => .inr rfl) (Eventually.of_forall fun _ => Iff.rfl) afs g1 R (tipEval_build 0 afs) o
    (Eventually.of_forall ho) out (Eventually.of_forall hout) (fun _ _ => L) (Eventually.of_forall fun s k hk => hLs s k hk)
    hload (tipCurve_regular 0)
  obtain ⟨J', hJ', hd'⟩ := evaluate_component_coefficient_jacobian_partial cornerFit plainBq tipEval tipCurve tipVel 0 (by simp [tipEval, plainBlade])
    (tipCurve_deriv 1 0) (by norm_num [tipCurve]) (by norm_num [tipCurve, tipEval, plainBlade]) (Eventually.of_forall fun _ => .inr rfl)
    (Eventually.of_forall fun _ => .inr rfl) (Eventually.of_forall fun _ => Iff.rfl) afs g1 R (tipEval_build 0 afs) o
    (Eventually.of_forall ho) out (Eventually.of_forall hout) (fun _ _ => L) (Eventually.of_forall fun s k hk => hLs s k hk)
    hload (tipCurve_regular 0) (by norm_num [tipEval, plainBlade]) (by norm_num [tipCurve]) (by norm_num [RotorDesign.radius, tipCurve])
    (by norm_num [tipCurve])
  obtain rfl := Except.ok.inj (hJ.symm.trans hJ')
  obtain ⟨out', J', h1, -, h3, -⟩ := evaluate_component _ _ _ _ (ho 0)
  obtain rfl := Except.ok.inj (h1.symm.trans (hout 0))
  refine ⟨o, out, J, ho, hout, hJ, hd ("Fhub", 0, fun x => x.acc.T) (by simp [evalOutputs]) (by simp), hd' ("CFhub", "Fhub", 0) (by simp) ?_⟩
  have := (h3 ("Fhub", 0, fun x => x.acc.T) (by simp [evalOutputs])).1
  simp only at this ⊢
  rw [this]
  exact hpos.ne'

/-- **C84** fails for the density, which the component declares as an input of every partial: the entry is zero, but where the
airfoils do not depend on the Reynolds number the thrust is proportional to the density. -/
theorem evaluate_component_density_false :
    ∃ (fit : SplineFit ℝ) (bq : RootFinder ℝ) (x : EvalIn ℝ) (out : ℝ → EvalCompOut ℝ) (J : Jac ℝ) (d : ℝ),
      (∀ rho, 0 < rho → ({ x with blade := { x.blade with rho := rho } } : EvalIn ℝ).compute fit bq = .ok (out rho)) ∧
      0 < x.blade.rho ∧ x.partials fit bq = .ok J ∧
      HasDerivAt (fun rho => (out rho).Fhub 0) d x.blade.rho ∧ 0 < d ∧ J.at "Fhub" "rho" 0 0 = 0 := by
  obtain ⟨o, afs, g1, g3, ho, hpos⟩ := tipEval_run
  set x := tipEval.withDesign (tipCurve 0) with hx
  have hrho : x.blade.rho = 1225 / 1000 := rfl
  set R : Rotor ℝ := (tipCurve 0).rotor { tipRotor with af := afList afs } with hRdef
  have hb : (x.blade.args x.theta afs true).build = .ok R := tipEval_build 0 afs
  have hev : (evaluate plainBq R [⟨10, 12, 0⟩] true).2 = .ok (o 0) := by
    obtain ⟨afs', R', h1, h2, h3⟩ := EvalIn.run_inv (ho 0)
    obtain rfl := Except.ok.inj (g1.symm.trans h1)
    obtain rfl := Except.ok.inj (hb.symm.trans h2)
    exact h3
  have hind : ∀ i < R.n, (R.af i).ReIndependent := by
    intro i hi
    have : R.af i = plainAirfoil := g3 i hi
    rw [this]
    intro a b c
    rfl
  have key : ∀ rho, 0 < rho → ∃ out, ({ x with blade := { x.blade with rho := rho } } : EvalIn ℝ).compute cornerFit plainBq = .ok out ∧
      out.Fhub 0 = rho / (1225 / 1000) * outputAt (o 0) (fun x => x.acc.T) 0 := by
    intro rho hr
    obtain ⟨o', h1, -, h2⟩ := rotor_similarity plainBq R hind (rho / (1225 / 1000)) 1 (by positivity) one_pos _ _ hev
    obtain ⟨acc, -, hc⟩ := evaluate_one hev
    obtain ⟨y, hy, hT, -⟩ := h2 0 _ (by rw [hc]; rfl)
    have hrun : ({ x with blade := { x.blade with rho := rho } } : EvalIn ℝ).run cornerFit plainBq true = .ok o' := by
      have e1 : x.blade.af.airfoils cornerFit 0 x.blade.n = .ok afs := g1
      have e2 : (({ x.blade with rho := rho } : BladeIn ℝ).args x.theta afs true).build = .ok (R.denser (rho / (1225 / 1000))) := by
        have hw : ∀ (y : CCArgs ℝ) (R : Rotor ℝ), y.build = .ok R → ({ y with rho := rho } : CCArgs ℝ).build = .ok { R with rho := rho } := by
          intro y R h
          unfold CCArgs.build at h ⊢
          by_cases h0 : y.n = 0
          · simp [h0, throw, throwThe, MonadExceptOf.throw, Bind.bind, Except.bind] at h
          · simp only [h0, if_false] at h ⊢
            obtain ⟨v1, e1, h⟩ := bind_inv h
            obtain ⟨v2, e2, h⟩ := bind_inv h
            obtain ⟨v3, e3, h⟩ := bind_inv h
            obtain ⟨v4, e4, h⟩ := bind_inv h
            cases h
            simp only [e1, e2, e3, e4, Bind.bind, Except.bind, pure, Except.pure]
        have := hw _ _ hb
        have hd : R.denser (rho / (1225 / 1000)) = { R with rho := rho } := by
          simp only [Rotor.denser, show R.rho = 1225 / 1000 from rfl]
          congr 1
          field_simp
        rw [hd]
        exact this
      unfold EvalIn.run
      simp only [e1, e2, Bind.bind, Except.bind]
      simpa [x, EvalIn.withDesign, tipCurve] using h1
    obtain ⟨out, J, k1, -, k2, -⟩ := evaluate_component _ _ _ _ hrun
    refine ⟨out, k1, ?_⟩
    have := (k2 ("Fhub", 0, fun x => x.acc.T) (by simp [evalOutputs])).1
    rw [show out.Fhub 0 = out.get "Fhub" 0 from rfl, this]
    simp only [outputAt, hy, hc, Option.map_some, Option.getD_some, hT, List.getElem?_cons_zero]
    ring
  obtain ⟨-, J, -, hJ, -, hz⟩ := evaluate_component _ _ _ _ (ho 0)
  have hfun : ∀ rho : ℝ, ∃ out : EvalCompOut ℝ, 0 < rho →
      ({ x with blade := { x.blade with rho := rho } } : EvalIn ℝ).compute cornerFit plainBq = .ok out ∧
      out.Fhub 0 = rho / (1225 / 1000) * outputAt (o 0) (fun x => x.acc.T) 0 := by
    intro rho
    by_cases h : 0 < rho
    · obtain ⟨out, h'⟩ := key rho h
      exact ⟨out, fun _ => h'⟩
    · exact ⟨⟨0, 0, fun _ => 0, fun _ => 0, 0, 0, fun _ => 0, fun _ => 0⟩, fun h' => absurd h' h⟩
  choose out hout using hfun
  refine ⟨cornerFit, plainBq, x, out, J, 1 / (1225 / 1000) * outputAt (o 0) (fun x => x.acc.T) 0, fun rho h => (hout rho h).1,
    by rw [hrho]; norm_num, hJ, ?_, by positivity, hz _ _ (by decide) _ _⟩
  have hd : HasDerivAt (fun rho : ℝ => rho / (1225 / 1000) * outputAt (o 0) (fun x => x.acc.T) 0)
      (1 / (1225 / 1000) * outputAt (o 0) (fun x => x.acc.T) 0) x.blade.rho := ((hasDerivAt_id _).div_const _).mul_const _
  refine hd.congr_of_eventuallyEq ?_
  have hp : (0 : ℝ) < x.blade.rho := by rw [hrho]; norm_num
  filter_upwards [lt_mem_nhds hp] with rho h
  exact (hout rho h).2

end Verif
