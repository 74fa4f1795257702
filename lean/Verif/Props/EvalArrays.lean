import Verif.Model.EvalArrays
import Verif.Props.Rotor
import Verif.Props.Twist

/-!
# C105: one operating condition per entry of the arrays
-/

namespace Verif

variable {α : Type} [Num α]

/-- Condition `i` consists of the entries `i` of the three arrays; there are as many as all three arrays have entries. -/
def condsOf (Uinf Omega pitch : List α) : List (Cond α) :=
  List.zipWith (fun u q => ⟨u, q.1, q.2⟩) Uinf (List.zip Omega pitch)

/-- The arrays with one entry per condition and, with derivatives, the dictionaries with one row per condition, of a blade with `n`
stations -/
def EvalOut.arrays (o : EvalOut α) (co de : Bool) (n : ℕ) : EvalArrays α :=
  let dict := fun (f : CondOut α → Quant α) => rotorDict n (o.conds.map f)
  let coefDict := fun (f : Coefs α → Quant α) => rotorDict n (o.conds.filterMap fun x => x.C.map f)
  let coef := fun (f : Coefs α → Quant α) => o.conds.filterMap fun x => x.C.map fun C => (f C).val
  let col := fun (f : CondOut α → Quant α) => o.conds.map fun x => (f x).val
  { P := col CondOut.P, T := col fun x => x.acc.T, Y := col fun x => x.acc.Y, Z := col fun x => x.acc.Z, Q := col fun x => x.acc.Q
    My := col fun x => x.acc.My, Mz := col fun x => x.acc.Mz, Mb := col fun x => x.acc.Mb, W := o.W
    C := if co then some ⟨coef Coefs.CP, coef Coefs.CT, coef Coefs.CY, coef Coefs.CZ, coef Coefs.CQ, coef Coefs.CMy, coef Coefs.CMz,
      coef Coefs.CMb⟩ else none
    derivs := if de then
      [("dP", dict CondOut.P), ("dT", dict fun x => x.acc.T), ("dY", dict fun x => x.acc.Y), ("dZ", dict fun x => x.acc.Z),
       ("dQ", dict fun x => x.acc.Q), ("dMy", dict fun x => x.acc.My), ("dMz", dict fun x => x.acc.Mz), ("dMb", dict fun x => x.acc.Mb)] ++
      if co then [("dCP", coefDict Coefs.CP), ("dCT", coefDict Coefs.CT), ("dCY", coefDict Coefs.CY), ("dCZ", coefDict Coefs.CZ),
        ("dCQ", coefDict Coefs.CQ), ("dCMy", coefDict Coefs.CMy), ("dCMz", coefDict Coefs.CMz), ("dCMb", coefDict Coefs.CMb)] else []
      else [] }

theorem indexLoop_conds (bq : RootFinder α) (U O p : List α) {is : List ℕ} {cs : List (Cond α)}
    (h : List.Forall₂ (fun i c => U[i]? = some c.Uinf ∧ O[i]? = some c.Omega ∧ p[i]? = some c.pitch) is cs) (R : Rotor α) :
    indexLoop bq U O p is R = condLoop bq cs R := by
  induction h generalizing R with
  | nil => rfl
  | cons h _ ih =>
    obtain ⟨h1, h2, h3⟩ := h
    simp only [indexLoop, condLoop, h1, h2, h3, ih]
    rfl

omit [Num α] in
theorem condsOf_length {U O p : List α} (hO : U.length ≤ O.length) (hp : U.length ≤ p.length) : (condsOf U O p).length = U.length := by
  simp only [condsOf, List.length_zipWith, List.length_zip]
  omega

omit [Num α] in
theorem condsOf_get {U O p : List α} {i : ℕ} (hU : i < U.length) (hO : i < O.length) (hp : i < p.length) :
    (condsOf U O p)[i]? = some ⟨U[i], O[i], p[i]⟩ := by
  simp [condsOf, hU, hO, hp, List.zip]

theorem indexLoop_range (bq : RootFinder α) {U O p : List α} (hO : U.length ≤ O.length) (hp : U.length ≤ p.length) (R : Rotor α) :
    indexLoop bq U O p (List.range U.length) R = condLoop bq (condsOf U O p) R := by
  refine indexLoop_conds bq U O p (List.forall₂_iff_get.mpr ⟨by rw [condsOf_length hO hp, List.length_range], fun i h1 h2 => ?_⟩) R
  have hi : i < U.length := by simpa using h1
  have hg := condsOf_get (O := O) (p := p) hi (by omega) (by omega)
  rw [List.getElem?_eq_getElem h2, Option.some.injEq] at hg
  simp only [List.get_eq_getElem, List.getElem_range, hg]
  exact ⟨List.getElem?_eq_getElem _, List.getElem?_eq_getElem _, List.getElem?_eq_getElem _⟩

theorem condLoop_length (bq : RootFinder α) : ∀ (cs : List (Cond α)) (R : Rotor α) {l : List (RotorAcc α)},
    (condLoop bq cs R).2 = .ok l → l.length = cs.length := by
  intro cs R l h
  rw [(condLoop_collect bq R cs R (SameDesign.refl R)).1] at h
  exact (collect_ok.mp h).length_eq.symm

omit [Num α] in
theorem condsOf_Uinf {U O p : List α} (hO : U.length ≤ O.length) (hp : U.length ≤ p.length) : (condsOf U O p).map Cond.Uinf = U := by
  apply List.ext_getElem
  · rw [List.length_map, condsOf_length hO hp]
  · intro i _ h
    simp [condsOf]

omit [Num α] in
theorem condsOf_Omega {U O p : List α} (hO : O.length = U.length) (hp : U.length ≤ p.length) : (condsOf U O p).map Cond.Omega = O := by
  apply List.ext_getElem
  · rw [List.length_map, condsOf_length hO.ge hp, hO]
  · intro i _ h
    simp [condsOf]

theorem coef_column (R : Rotor α) (f : Coefs α → Quant α) : ∀ (cs : List (Cond α)) (accs : List (RotorAcc α)),
    (List.zipWith (fun c a => (⟨a, power a.Q c.Omega, some (coefs R c a)⟩ : CondOut α)) cs accs).filterMap
      (fun x => x.C.map fun C => (f C).val) = List.zipWith (fun c a => (f (coefs R c a)).val) cs accs
  | [], _ => by simp
  | _ :: _, [] => by simp
  | c :: cs, a :: accs => by simp [coef_column R f cs accs]

theorem coef_quants (R : Rotor α) (f : Coefs α → Quant α) : ∀ (cs : List (Cond α)) (accs : List (RotorAcc α)),
    (List.zipWith (fun c a => (⟨a, power a.Q c.Omega, some (coefs R c a)⟩ : CondOut α)) cs accs).filterMap
      (fun x => x.C.map f) = List.zipWith (fun c a => f (coefs R c a)) cs accs
  | [], _ => by simp
  | _ :: _, [] => by simp
  | c :: cs, a :: accs => by simp [coef_quants R f cs accs]

theorem zip_coefs (R : Rotor α) (f : Coefs α → Quant α) : ∀ (cs : List (Cond α)) (accs : List (RotorAcc α)),
    List.zipWith (fun x a => f (coefs R ⟨x.1, x.2, 0⟩ a)) (List.zip (cs.map Cond.Uinf) (cs.map Cond.Omega)) accs
      = List.zipWith (fun c a => f (coefs R c a)) cs accs
  | [], _ => by simp
  | _ :: _, [] => by simp
  | c :: cs, a :: accs => by
    have := zip_coefs R f cs accs
    simp only [List.map_cons, List.zip_cons_cons, List.zipWith_cons_cons, this]
    rfl

omit [Num α] in
theorem zip_right {β γ : Type} (g : RotorAcc α → β) : ∀ (cs : List γ) (accs : List (RotorAcc α)), accs.length = cs.length →
    List.zipWith (fun _ a => g a) cs accs = accs.map g
  | [], [], _ => rfl
  | _ :: cs, _ :: accs, h => by simp [zip_right g cs accs (by simpa using h)]

omit [Num α] in
theorem zip_fields (f : α → α → α) (g : α → α → α) (q : RotorAcc α → α) :
    ∀ (cs : List (Cond α)) (accs : List (RotorAcc α)),
    List.zipWith f (List.zipWith g (accs.map q) (cs.map Cond.Omega)) (cs.map Cond.Uinf) =
      List.zipWith (fun c a => f (g (q a) c.Omega) c.Uinf) cs accs
  | [], _ => by simp
  | _ :: _, [] => by simp
  | c :: cs, a :: accs => by
    have := zip_fields f g q cs accs
    simp only [List.map_cons, List.zipWith_cons_cons, this]

omit [Num α] in
theorem zip_omega (g : α → α → α) (q : RotorAcc α → α) : ∀ (cs : List (Cond α)) (accs : List (RotorAcc α)),
    List.zipWith g (accs.map q) (cs.map Cond.Omega) = List.zipWith (fun c a => g (q a) c.Omega) cs accs
  | [], _ => by simp
  | _ :: _, [] => by simp
  | c :: cs, a :: accs => by
    have := zip_omega g q cs accs
    simp only [List.map_cons, List.zipWith_cons_cons, this]

/-- **C105** For arrays `Uinf` and `Omega` of equal length and `pitch` at least as long (further entries are ignored) every array of the
result has one entry per condition, that of the condition made of the entries of the three arrays, and every derivative dictionary
has its rows; the exceptions are the same too. -/
theorem evaluate_arrays_partial (bq : RootFinder α) (R : Rotor α) {U O p : List α} (hO : O.length = U.length)
    (hp : U.length ≤ p.length) (co : Bool) :
    evaluateArrays bq R U O p co =
      ((evaluate bq R (condsOf U O p) co).1, (evaluate bq R (condsOf U O p) co).2.map fun o => o.arrays co R.derivatives R.n) := by
  have hl := indexLoop_range bq hO.ge hp R
  have hlen := condsOf_length hO.ge hp
  have hlens : ∀ l, (condLoop bq (condsOf U O p) R).2 = .ok l → l.length = U.length := fun l h => by rw [condLoop_length bq _ _ h, hlen]
  have hU' := condsOf_Uinf hO.ge hp
  have hO' := condsOf_Omega hO hp
  unfold evaluateArrays evaluate
  rw [hl]
  generalize condLoop bq (condsOf U O p) R = x at *
  obtain ⟨R', y⟩ := x
  cases y with
  | error e => rfl
  | ok accs =>
    have hn := hlens accs rfl
    generalize condsOf U O p = cs at *
    subst hU' hO'
    have hn' : accs.length = cs.length := by simpa using hn
    have b1 : ∀ f : α → α → α, npBroadcast f (accs.map fun a => a.Q.val) (cs.map Cond.Omega) =
        .ok (List.zipWith f (accs.map fun a => a.Q.val) (cs.map Cond.Omega)) := fun f => if_pos (by simp [hn'])
    have b2 : ∀ f g : α → α → α, npBroadcast f (List.zipWith g (accs.map fun a => a.Q.val) (cs.map Cond.Omega)) (cs.map Cond.Uinf) =
        .ok (List.zipWith f (List.zipWith g (accs.map fun a => a.Q.val) (cs.map Cond.Omega)) (cs.map Cond.Uinf)) :=
      fun f g => if_pos (by simp [hn'])
    have hd : ∀ g : α → α → α, (R.derivatives && (List.zipWith g (accs.map fun a => a.Q.val) (cs.map Cond.Omega)).length
        != (cs.map Cond.Uinf).length) = false := fun g => by simp [hn']
    simp only [b1, coefArrays, b2, hd, Bool.false_eq_true, if_false]
    cases hW : accs.getLast?.bind RotorAcc.W with
    | none => cases co <;> rfl
    | some W =>
      cases co
      · simp only [Bool.false_eq_true, if_false, Except.map, EvalOut.arrays, List.map_zipWith, zip_right _ cs accs hn', derivDicts]
        rw [zip_omega]
        simp only [List.zipWith_map_left]
        rfl
      · simp only [if_true, Except.map, EvalOut.arrays, List.map_zipWith, zip_right _ cs accs hn', coef_column, coef_quants,
          zip_fields, derivDicts, zip_coefs]
        rw [zip_omega]
        simp only [List.zipWith_map_left]
        rfl

theorem indexLoop_missing (bq : RootFinder α) (U O p : List α) : ∀ (is : List ℕ) (R : Rotor α), R.nSector ≠ 0 →
    (∃ i ∈ is, O.length ≤ i ∨ p.length ≤ i) → ∃ e, (indexLoop bq U O p is R).2 = .error e
  | [], _, _, h => by simp at h
  | i :: is, R, hn, h => by
    have hstep : ∀ (x : Rotor α × Except PyErr (RotorAcc α)), SameDesign R x.1 → ((∃ e, x.2 = .error e) ∨ ∃ j ∈ is, O.length ≤ j ∨ p.length ≤ j) →
        ∃ e, (match x with
          | (R', .error e) => (R', .error e)
          | (R', .ok acc) =>
            match indexLoop bq U O p is R' with
            | (R'', .error e) => (R'', .error e)
            | (R'', .ok l) => (R'', .ok (acc :: l)) : Rotor α × Except PyErr (List (RotorAcc α))).2 = .error e := by
      rintro ⟨R', y⟩ hd hx
      cases y with
      | error e => exact ⟨e, rfl⟩
      | ok acc =>
        rcases hx with ⟨e, he⟩ | hx
        · cases he
        · obtain ⟨e, he⟩ := indexLoop_missing bq U O p is R' (by rw [hd.nSector]; exact hn) hx
          simp only
          generalize indexLoop bq U O p is R' = z at he ⊢
          obtain ⟨R'', z⟩ := z
          simp only at he
          subst he
          exact ⟨e, rfl⟩
    simp only [indexLoop]
    refine hstep _ ?_ ?_
    · split
      · exact sameDesign_sectorLoop _ _ _ _ _ _ _
      · exact SameDesign.refl R
    · by_cases hi : O.length ≤ i ∨ p.length ≤ i
      · left
        rw [if_neg hn]
        split
        · rename_i h1 h2
          rcases hi with hi | hi
          · rw [List.getElem?_eq_none hi] at h1; cases h1
          · rw [List.getElem?_eq_none hi] at h2; cases h2
        · exact ⟨_, rfl⟩
      · right
        obtain ⟨j, hj, h⟩ := h
        rcases List.mem_cons.mp hj with rfl | hj
        · exact absurd h hi
        · exact ⟨j, hj, h⟩

theorem evaluate_arrays_no_sector (bq : RootFinder α) (R : Rotor α) {U O p : List α} (hn : R.nSector = 0) (co : Bool) :
    ∃ e, (evaluateArrays bq R U O p co).2 = .error e := by
  have key : ∀ is : List ℕ, indexLoop bq U O p is R = (R, .ok (is.map fun _ => .zero)) := by
    intro is
    induction is with
    | nil => rfl
    | cons i is ih =>
      simp only [indexLoop, hn, if_true]
      split
      · rename_i h; split at h <;> cases h
      · rename_i h
        split at h <;> (cases h; simp [ih])
  unfold evaluateArrays
  rw [key]
  simp only
  cases npBroadcast (fun Q o => Q * o * Num.pi / Num.nat 30)
      (((List.range U.length).map fun _ => (RotorAcc.zero : RotorAcc α)).map fun a => a.Q.val) O with
  | error e => exact ⟨e, rfl⟩
  | ok P =>
    have hW : ((List.range U.length).map fun _ => (RotorAcc.zero : RotorAcc α)).getLast?.bind RotorAcc.W = none := by
      cases hg : ((List.range U.length).map fun _ => (RotorAcc.zero : RotorAcc α)).getLast? with
      | none => rfl
      | some a =>
        have := List.mem_of_getLast? hg
        simp only [List.mem_map] at this
        obtain ⟨_, _, rfl⟩ := this
        rfl
    simp only [hW]
    split_ifs
    · exact ⟨_, rfl⟩
    all_goals split <;> exact ⟨_, rfl⟩

/-- **C105** An array `Omega` or `pitch` that is shorter than `Uinf` makes the call raise. -/
theorem evaluate_arrays_short (bq : RootFinder α) (R : Rotor α) {U O p : List α} (h : O.length < U.length ∨ p.length < U.length)
    (hn : R.nSector ≠ 0) (co : Bool) : ∃ e, (evaluateArrays bq R U O p co).2 = .error e := by
  obtain ⟨e, he⟩ := indexLoop_missing bq U O p (List.range U.length) R hn (by
    rcases h with h | h
    · exact ⟨O.length, List.mem_range.mpr h, .inl le_rfl⟩
    · exact ⟨p.length, List.mem_range.mpr h, .inr le_rfl⟩)
  unfold evaluateArrays
  generalize indexLoop bq U O p (List.range U.length) R = x at he ⊢
  obtain ⟨R', y⟩ := x
  simp only at he
  subst he
  exact ⟨e, rfl⟩

/-- **C105** An array `Omega` that is longer than `Uinf` makes the call raise, unless `Uinf` has one entry. -/
theorem evaluate_arrays_long (bq : RootFinder α) (R : Rotor α) {U O p : List α} (hO : U.length < O.length) (hU : U.length ≠ 1)
    (co : Bool) : ∃ e, (evaluateArrays bq R U O p co).2 = .error e := by
  by_cases hp : U.length ≤ p.length
  swap
  · by_cases hn : R.nSector = 0
    · -- no sector: the loops run without a body
      exact evaluate_arrays_no_sector bq R hn co
    · exact evaluate_arrays_short bq R (.inr (by omega)) hn co
  have hl := indexLoop_range bq hO.le hp R
  have hlens : ∀ l, (condLoop bq (condsOf U O p) R).2 = .ok l → l.length = U.length :=
    fun l h => by rw [condLoop_length bq _ _ h, condsOf_length hO.le hp]
  unfold evaluateArrays
  rw [hl]
  generalize condLoop bq (condsOf U O p) R = x at *
  obtain ⟨R', y⟩ := x
  cases y with
  | error e => exact ⟨e, rfl⟩
  | ok accs =>
    have hn := hlens accs rfl
    by_cases h0 : U.length = 0 ∧ O.length = 1
    · obtain rfl : accs = [] := List.length_eq_zero_iff.mp (by omega)
      obtain ⟨o, rfl⟩ := List.length_eq_one_iff.mp h0.2
      obtain rfl : U = [] := List.length_eq_zero_iff.mp h0.1
      have hb : ∀ f : α → α → α, npBroadcast f (([] : List (RotorAcc α)).map fun a => a.Q.val) [o] = .ok [] := fun f => rfl
      simp only [hb]
      refine ⟨.unboundLocal, ?_⟩
      cases hdr : R.derivatives <;> cases co <;> rfl
    · refine ⟨.valueError, ?_⟩
      have hb : npBroadcast (fun Q o => Q * o * Num.pi / Num.nat 30) (accs.map fun a => a.Q.val) O = .error .valueError := by
        have e1 : (accs.map fun a => a.Q.val).length = U.length := by simp [hn]
        generalize accs.map (fun a => a.Q.val) = q at e1 ⊢
        unfold npBroadcast
        rw [if_neg (by omega)]
        match q, O, e1, hO, h0 with
        | [_], _, e1, _, _ => exact absurd e1.symm hU
        | [], [], _, hO, _ => simp at hO
        | [], [_], e1, _, h0 => exact absurd ⟨e1.symm, rfl⟩ h0
        | [], _ :: _ :: _, _, _, _ => rfl
        | _ :: _ :: _, [], _, hO, _ => simp at hO
        | _ :: _ :: _, [_], e1, hO, _ => simp only [List.length_cons, List.length_nil] at e1 hO; omega
        | _ :: _ :: _, _ :: _ :: _, _, _, _ => rfl
      simp only [hb]

/-- **C105** With derivatives the call raises for all arrays `Omega` that are not as long as `Uinf`. -/
theorem evaluate_arrays_derivatives (bq : RootFinder α) (R : Rotor α) {U O p : List α} (hO : O.length ≠ U.length) (hn : R.nSector ≠ 0)
    (hd : R.derivatives = true) (co : Bool) : ∃ e, (evaluateArrays bq R U O p co).2 = .error e := by
  rcases lt_or_gt_of_ne hO with h | h
  · exact evaluate_arrays_short bq R (.inl h) hn co
  by_cases hU : U.length = 1
  swap
  · exact evaluate_arrays_long bq R h hU co
  by_cases hp : U.length ≤ p.length
  swap
  · exact evaluate_arrays_short bq R (.inr (by omega)) hn co
  have hl := indexLoop_range bq h.le hp R
  have hlens : ∀ l, (condLoop bq (condsOf U O p) R).2 = .ok l → l.length = U.length :=
    fun l h' => by rw [condLoop_length bq _ _ h', condsOf_length h.le hp]
  unfold evaluateArrays
  rw [hl]
  generalize condLoop bq (condsOf U O p) R = x at *
  obtain ⟨R', y⟩ := x
  cases y with
  | error e => exact ⟨e, rfl⟩
  | ok accs =>
    obtain ⟨a, rfl⟩ := List.length_eq_one_iff.mp ((hlens accs rfl).trans hU)
    have hb : ∀ f : α → α → α, npBroadcast f ([a].map fun a => a.Q.val) O = .ok (O.map (f a.Q.val)) := by
      intro f
      unfold npBroadcast
      rw [if_neg (by simp only [List.map_cons, List.map_nil, List.length_cons, List.length_nil]; omega)]
      rfl
    refine ⟨.valueError, ?_⟩
    simp only [hb, hd, List.length_map, Bool.true_and, bne_iff_ne, ne_eq, hO, not_false_eq_true, if_true]

/-- **C105** Without derivatives, with one wind speed and several rotational speeds, the call succeeds whenever it does for the first of them.  There is one
thrust and so on, those for the first rotational speed; there are as many powers as rotational speeds, all computed with the torque
at the first. -/
theorem evaluate_arrays_one {bq : RootFinder α} {R : Rotor α} {u o0 p0 : α} {O p : List α} (hO : O ≠ []) {o : EvalOut α} {co : Bool}
    (hd : R.derivatives = false) (h : (evaluate bq R [⟨u, o0, p0⟩] co).2 = .ok o) :
    ∃ x v, o.conds = [x] ∧ (evaluateArrays bq R [u] (o0 :: O) (p0 :: p) co).2 = .ok v ∧
      v.T = [x.acc.T.val] ∧ v.Y = [x.acc.Y.val] ∧ v.Z = [x.acc.Z.val] ∧ v.Q = [x.acc.Q.val] ∧ v.My = [x.acc.My.val] ∧
      v.Mz = [x.acc.Mz.val] ∧ v.Mb = [x.acc.Mb.val] ∧ v.P = (o0 :: O).map fun w => x.acc.Q.val * w * Num.pi / Num.nat 30 := by
  have hl := indexLoop_range bq (U := [u]) (O := o0 :: O) (p := p0 :: p) (by simp) (by simp) R
  have hc : condsOf [u] (o0 :: O) (p0 :: p) = [⟨u, o0, p0⟩] := by simp [condsOf]
  rw [hc] at hl
  unfold evaluate at h
  unfold evaluateArrays
  rw [hl]
  have hlens : ∀ l, _ := fun l => condLoop_length bq [⟨u, o0, p0⟩] R (l := l)
  generalize condLoop bq [⟨u, o0, p0⟩] R = x at h hlens ⊢
  obtain ⟨R', y⟩ := x
  cases y with
  | error e => cases h
  | ok accs =>
    obtain ⟨a, rfl⟩ := List.length_eq_one_iff.mp (hlens _ rfl)
    obtain ⟨o1, O', rfl⟩ := List.exists_cons_of_ne_nil hO
    simp only at h
    cases hW : ([a].getLast?.bind RotorAcc.W) with
    | none => rw [hW] at h; cases h
    | some W =>
      rw [hW] at h
      simp only [Except.ok.injEq] at h
      subst h
      have hb : npBroadcast (fun Q o => Q * o * Num.pi / Num.nat 30) ([a].map fun a => a.Q.val) (o0 :: o1 :: O') =
          .ok ((o0 :: o1 :: O').map fun w => a.Q.val * w * Num.pi / Num.nat 30) := by
        unfold npBroadcast
        rw [if_neg (by simp)]
        rfl
      have hb2 : ∀ f : α → α → α, npBroadcast f ((o0 :: o1 :: O').map fun w => a.Q.val * w * Num.pi / Num.nat 30) [u] =
          .ok (((o0 :: o1 :: O').map fun w => a.Q.val * w * Num.pi / Num.nat 30).map fun b => f b u) := by
        intro f
        unfold npBroadcast
        rw [if_neg (by simp)]
        rfl
      simp only [hb, coefArrays, hb2, hW, hd, Bool.false_and, Bool.false_eq_true, if_false]
      cases co
      · exact ⟨_, _, rfl, rfl, rfl, rfl, rfl, rfl, rfl, rfl, rfl, rfl⟩
      · exact ⟨_, _, rfl, rfl, rfl, rfl, rfl, rfl, rfl, rfl, rfl, rfl⟩

/-- The tangential load is positive at every station. -/
theorem plainRotor_Tp {L : LoadsOut ℝ} (hL : (distributedAeroLoads plainBq plainRotor 10 12 0 0).2 = .ok L) (i : ℕ) (hi : i < 3) :
    0 < stationArr L.stations SecLoads.Tp i := by
  have h0 : distributedAeroLoads plainBq plainRotor 10 12 0 0 = (_, .ok L) := Prod.ext rfl hL
  obtain ⟨l1, l2⟩ := solveStations_ok (distributedAeroLoads_stations h0)
  obtain ⟨s, hs, -⟩ := l2 i hi
  have hw : rotorWind plainRotor 10 12 (deg2rad 0) i = (10, 12 * Real.pi / 30 * (10 + 20 * i)) := demoRotor_wind 10 12 _ i
  have hVy : (0 : ℝ) < 12 * Real.pi / 30 * (10 + 20 * i) := by have := Real.pi_pos; positivity
  obtain ⟨hq, -, hTp, -⟩ := distributedAeroLoads_forces plainBq plainRotor _ 10 12 0 0 L h0 i s hs
  obtain ⟨d, h1, h2, h3, -, -⟩ := solveStation_real (loads_station h0 hs).2
  have hphi : s.phi = Real.pi / 4 := by
    simp only [stationPhi, num_real, decide_eq_true_eq, show ¬ ((12 : ℝ) = 0) by norm_num, if_false,
      show ¬ plainRotor.iterRe = 0 by simp [plainRotor, demoRotor], solvePhi, plainBq, Except.ok.injEq, Prod.mk.injEq] at h1
    exact h1.1.symm
  have hW : 0 < s.loads.W ^ 2 ∧ s.loads.cl = 1 ∧ s.loads.cd = 0 := by
    rcases secLoads_ok h3 with ⟨-, -, hl, -⟩ | ⟨h4, -⟩
    · have hap : (runBEM plainRotor (deg2rad 0) s.phi (stationSec plainRotor (rotorWind plainRotor 10 12 (deg2rad 0)) i s.theta)).ap = 0 := rfl
      refine ⟨?_, ?_, ?_⟩
      · rw [hl]
        have h12 : (!((12 : ℝ) == 0)) = true := by simp [num_real]
        simp only [secValues, relativeWind, h12, if_true, hap]
        refine relSpeed_pos _ _ _ _ ?_ ?_
        · rw [hphi]
          exact (Real.cos_pos_of_mem_Ioo ⟨by linarith [Real.pi_pos], by linarith [Real.pi_pos]⟩).ne'
        · simp only [stationSec, hw]
          exact hVy.ne'
      · rw [hl]; simp [secValues, runBEM, bemPasses, bemPass, stationSec, plainRotor, plainAirfoil, demoRotor]
      · rw [hl]; simp [secValues, runBEM, bemPasses, bemPass, stationSec, plainRotor, plainAirfoil, demoRotor]
    · simp only [stationSec, hw] at h4
      rcases h4 with h4 | h4
      · norm_num at h4
      · exact absurd h4 hVy.ne'
  have hch : (0 : ℝ) < plainRotor.chord i := by
    have : (i : ℝ) ≤ 2 := by exact_mod_cast (by omega : i ≤ 2)
    simp only [plainRotor, demoRotor]
    linarith
  have hsin : 0 < Real.sin (Real.pi / 4) := Real.sin_pos_of_pos_of_lt_pi (by linarith [Real.pi_pos]) (by linarith [Real.pi_pos])
  have hrho : 0 < plainRotor.rho := by norm_num [plainRotor, demoRotor]
  simp only [stationArr, hs, Option.map_some, Option.getD_some]
  rw [hTp, hq, hW.2.1, hW.2.2, hphi]
  have := hW.1
  simp only [one_mul, zero_mul, sub_zero]
  positivity

theorem plainRotor_Q {L : LoadsOut ℝ} (hL : (distributedAeroLoads plainBq plainRotor 10 12 0 0).2 = .ok L) :
    0 < (bladeInt plainRotor L).Q := by
  have h0 := plainRotor_Tp hL 0 (by norm_num)
  have h1 := plainRotor_Tp hL 1 (by norm_num)
  have h2 := plainRotor_Tp hL 2 (by norm_num)
  simp only [bladeInt, thrustTorque, trapz, num_real, show plainRotor.n = 3 from rfl, Finset.sum_range_succ, Finset.sum_range_zero]
  generalize stationArr L.stations SecLoads.Tp = Tp at h0 h1 h2 ⊢
  simp [padded, defineCurvature, pathLength, segLength, zAz, num_real, plainRotor, demoRotor]
  norm_num
  positivity

/-- **C105** is false for one wind speed and several rotational speeds: a call with the rotational speeds 0 and 12 rpm that reports one
thrust and two powers, both zero, though the rotor has a positive power at 12 rpm. -/
theorem evaluate_arrays_false : ∃ (bq : RootFinder ℝ) (R : Rotor ℝ) (v : EvalArrays ℝ) (o : EvalOut ℝ) (x : CondOut ℝ),
    (evaluateArrays bq R [10] [0, 12] [0] true).2 = .ok v ∧ v.T.length = 1 ∧ v.P = [0, 0] ∧
    (evaluate bq R [⟨10, 12, 0⟩] true).2 = .ok o ∧ o.conds = [x] ∧ 0 < x.P.val := by
  obtain ⟨o, h⟩ := plainRotor_evaluate 1 le_rfl
  obtain ⟨x, e⟩ := List.length_eq_one_iff.mp (evaluate_length h)
  obtain ⟨L, hL, -, hQ, -⟩ := plainRotor_axisymmetric.outputs le_rfl h (m := 0) (c := ⟨10, 12, 0⟩) rfl (by rw [e]; rfl)
  have hP := (power_coefficients h (m := 0) (c := ⟨10, 12, 0⟩) rfl (by rw [e]; rfl)).1
  have hpos : 0 < x.P.val := by
    rw [hP, hQ]
    have := plainRotor_Q hL
    have hB : (0 : ℝ) < plainRotor.B := by norm_num [plainRotor, demoRotor]
    have := Real.pi_pos
    positivity
  obtain ⟨acc, h1⟩ := (condAcc_ok_iff plainBq (plainRotor.withSectors 1) ⟨10, 0, 0⟩).mpr fun k _ => by
    obtain ⟨L, hL, -⟩ := distributedAeroLoads_standstill plainBq (plainRotor.withSectors 1) 10 0 0
      (k * (360 / (plainRotor.withSectors 1).nSector)) rfl (by simp [num_real]) (fun x => by simp [num_real])
    exact ⟨L, hL⟩
  obtain ⟨W, hW⟩ := Option.isSome_iff_exists.mp ((condAcc_W h1).mpr (by simp [Rotor.withSectors]))
  have h0 : (evaluate plainBq (plainRotor.withSectors 1) [⟨10, 0, 0⟩] true).2 = .ok ⟨_, W⟩ := (evaluate_single _ _ _ _ _).mpr ⟨acc, h1, hW, rfl⟩
  obtain ⟨x0, v, e0, hv, hT, -, -, -, -, -, -, hPv⟩ := evaluate_arrays_one (O := [12]) (p := []) (by simp) rfl h0
  obtain ⟨L0, hL0, -, hQ0, -⟩ := plainRotor_axisymmetric.outputs le_rfl h0 (m := 0) (c := ⟨10, 0, 0⟩) rfl (by rw [e0]; rfl)
  have hz : x0.acc.Q.val = 0 := by
    rw [hQ0]
    have hT0 : ∀ i, stationArr L0.stations SecLoads.Tp i = 0 := by
      intro i
      have g0 : distributedAeroLoads plainBq plainRotor 10 0 0 0 = (_, .ok L0) := Prod.ext rfl hL0
      simp only [stationArr]
      cases hs : L0.stations[i]? with
      | none => rfl
      | some s =>
        obtain ⟨d, -, -, h3, -, -⟩ := solveStation_real (loads_station g0 hs).2
        rcases secLoads_ok h3 with ⟨-, hVy, -⟩ | ⟨-, hl⟩
        · refine absurd ?_ hVy
          have hw : rotorWind plainRotor 10 0 (deg2rad 0) i = (10, 0 * Real.pi / 30 * (10 + 20 * i)) := demoRotor_wind 10 0 _ i
          simp only [stationSec, hw]
          ring
        · simp [hl]
    have : stationArr L0.stations SecLoads.Tp = fun _ => 0 := funext hT0
    simp only [bladeInt, thrustTorque, this, trapz, num_real]
    simp [padded]
  refine ⟨plainBq, plainRotor.withSectors 1, v, o, x, hv, by rw [hT]; rfl, ?_, h, e, hpos⟩
  rw [hPv, hz]
  simp [num_real]

/-- Non-vacuity of the equal lengths: two conditions, two entries of every array. -/
example : ∃ v, (evaluateArrays plainBq (plainRotor.withSectors 3) [10, 10] [12, 12] [0, 0, 5] true).2 = .ok v ∧ v.P.length = 2 ∧
    v.T.length = 2 ∧ 0 < v.P.getD 1 0 := by
  obtain ⟨o1, h1⟩ := plainRotor_evaluate 3 (by norm_num)
  obtain ⟨o, h⟩ := evaluate_conditions_ok plainBq (plainRotor.withSectors 3) [⟨10, 12, 0⟩, ⟨10, 12, 0⟩] true (by simp) (by
    intro c hc
    obtain rfl : c = ⟨10, 12, 0⟩ := by simpa using hc
    exact ⟨o1, h1⟩)
  have he := evaluate_arrays_partial plainBq (plainRotor.withSectors 3) (U := [10, 10]) (O := [12, 12]) (p := [0, 0, 5]) rfl (by simp) true
  have hc : condsOf [(10 : ℝ), 10] [12, 12] [0, 0, 5] = [⟨10, 12, 0⟩, ⟨10, 12, 0⟩] := by simp [condsOf]
  rw [hc, h] at he
  have hlen := evaluate_length h
  obtain ⟨a, b, hab⟩ := List.length_eq_two.mp hlen
  obtain ⟨L, hL, -, hQ, -⟩ := plainRotor_axisymmetric.outputs (by norm_num) h (m := 1) (c := ⟨10, 12, 0⟩) rfl (by rw [hab]; rfl)
  have hP := (power_coefficients h (m := 1) (c := ⟨10, 12, 0⟩) rfl (by rw [hab]; rfl)).1
  refine ⟨o.arrays true false 3, by rw [he]; rfl, by simp [EvalOut.arrays, hab], by simp [EvalOut.arrays, hab], ?_⟩
  simp only [EvalOut.arrays, hab, List.map_cons, List.map_nil, List.getD_cons_succ, List.getD_cons_zero]
  rw [hP, hQ]
  have := plainRotor_Q hL
  have hB : (0 : ℝ) < plainRotor.B := by norm_num [plainRotor, demoRotor]
  have := Real.pi_pos
  positivity

/-- Non-vacuity of the refusals -/
example (bq : RootFinder ℝ) (co : Bool) : (∃ e, (evaluateArrays bq plainRotor [8, 10] [12] [0, 0] co).2 = .error e) ∧
    ∃ e, (evaluateArrays bq plainRotor [8, 10] [12, 13, 14] [0, 0] co).2 = .error e :=
  ⟨evaluate_arrays_short bq _ (by simp) (by simp [plainRotor, demoRotor]) co, evaluate_arrays_long bq _ (by simp) (by simp) co⟩

example (bq : RootFinder ℝ) (co : Bool) : ∃ e, (evaluateArrays bq { plainRotor with derivatives := true } [10] [0, 12] [0] co).2 = .error e :=
  evaluate_arrays_derivatives bq _ (by simp) (by simp [plainRotor, demoRotor]) rfl co

end Verif
