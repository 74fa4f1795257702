import Verif.Model.Dtype
import Verif.Props.Constructor
import Verif.Props.Loads
import Verif.Props.Brake
import Mathlib.Tactic.Linarith

/-!
# Arrays of whole numbers (C108)
-/

namespace Verif

/-! ## Helpers -/

theorem real_intc (z : ℤ) : (intc z : ℝ) = z := by
  cases z with
  | ofNat n => simp [intc, num_real]
  | negSucc n => simp [intc, num_real, Int.cast_negSucc]

/-- The whole number that an integer array keeps -/
theorem real_store_int (v : ℝ) : Dtype.int.store v = ((if 0 ≤ v then ⌊v⌋ else ⌈v⌉ : ℤ) : ℝ) := by
  simp only [Dtype.store, real_intc, num_real]

theorem store_int_eq_iff (v : ℝ) : Dtype.int.store v = v ↔ ∃ z : ℤ, v = z := by
  rw [real_store_int]
  constructor
  · intro h
    exact ⟨_, h.symm⟩
  · rintro ⟨z, rfl⟩
    split_ifs <;> simp

theorem store_int_between (v : ℝ) (m : ℕ) (h1 : (m : ℝ) ≤ v) (h2 : v < m + 1) : Dtype.int.store v = m := by
  have h0 : (0 : ℝ) ≤ m := Nat.cast_nonneg m
  rw [real_store_int, if_pos (by linarith)]
  have : ⌊v⌋ = (m : ℤ) := by
    rw [Int.floor_eq_iff]
    push_cast
    exact ⟨h1, h2⟩
  rw [this]
  simp

/-- The first station as `np.interp` places it -/
noncomputable def hubPlace (x : CCArgs ℝ) : ℝ := x.r 0 + hubFrac x.n x.r * (x.r 1 - x.r 0)

/-- The last entry of an array over the stations as `np.interp` places it -/
noncomputable def tipPlace (x : CCArgs ℝ) (f : ℕ → ℝ) : ℝ := f (x.n - 2) + tipFrac x.n x.r * (f (x.n - 1) - f (x.n - 2))

/-- The stored arrays in closed form. -/
theorem buildTyped_arrays (t : ArgTypes) (x : CCArgs ℝ) (h : Increasing x.n x.r) :
    ∃ R S, x.build = .ok R ∧ x.buildTyped t = .ok S ∧
      S = { R with
        r := fun i => if i = x.n - 1 ∧ x.Rtip = x.r (x.n - 1) then t.r.store (tipPlace x x.r)
          else if i = 0 ∧ x.Rhub = x.r 0 then t.r.store (hubPlace x) else x.r i
        precurve := fun i => match x.precurve with
          | none => 0
          | some c => if i = x.n - 1 ∧ x.precurveTip = c (x.n - 1) then t.precurve.store (tipPlace x c) else c i
        presweep := fun i => match x.presweep with
          | none => 0
          | some c => if i = x.n - 1 ∧ x.presweepTip = c (x.n - 1) then t.presweep.store (tipPlace x c) else c i } := by
  have hn := h.1
  have h0l : x.r 0 < x.r (x.n - 1) := h.2 0 (x.n - 1) (by omega) (by omega)
  have b : x.r (x.n - 1) - x.r 0 ≠ 0 := by linarith
  unfold CCArgs.build CCArgs.buildTyped
  simp only [show ¬ x.n = 0 by omega, show ¬ x.n = 1 by omega, if_false]
  have e1 : npMinimum (Num.nat 1 / Num.nat 100 : ℝ) (((x.r 0 - x.r 0) / (x.r (x.n - 1) - x.r 0)
      + (x.r 1 - x.r 0) / (x.r (x.n - 1) - x.r 0)) / Num.nat 2)
      = min (1 / 100) ((x.r 1 - x.r 0) / (x.r (x.n - 1) - x.r 0) / 2) := by
    simp only [npMinimum, num_real, sub_self, zero_div, zero_add, Bool.false_eq_true, if_false, min_def]
    push_cast
    rfl
  have e2 : npMaximum (Num.nat 99 / Num.nat 100 : ℝ) (((x.r (x.n - 2) - x.r 0) / (x.r (x.n - 1) - x.r 0)
      + (x.r (x.n - 1) - x.r 0) / (x.r (x.n - 1) - x.r 0)) / Num.nat 2)
      = max (99 / 100) (((x.r (x.n - 2) - x.r 0) / (x.r (x.n - 1) - x.r 0) + 1) / 2) := by
    simp only [npMaximum, num_real, div_self b, Bool.false_eq_true, if_false, max_def]
    push_cast
    split_ifs with h1 h2 h2
    · exact le_antisymm h2 h1
    · rfl
    · rfl
    · exact absurd (le_of_not_ge h1) h2
  rw [e1, e2, interp_hub h, interp_tip h, interp_tip h, interp_tip h]
  simp only [bind, Except.bind, pure, Except.pure]
  refine ⟨_, _, rfl, rfl, ?_⟩
  simp only [Rotor.mk.injEq, true_and, and_true]
  refine ⟨?_, ?_, ?_⟩
  · funext i
    simp only [num_real, decide_eq_true_eq, tipPlace, hubPlace]
    by_cases ht : x.Rtip = x.r (x.n - 1) <;> by_cases hh : x.Rhub = x.r 0 <;> simp [ht, hh, setAt]
  · funext i
    cases hc : x.precurve with
    | none => simp [setAt, Dtype.store]
    | some c =>
      simp only [Option.isNone_some, Option.getD_some, num_real, Bool.false_eq_true, if_false, tipPlace]
      by_cases ht : x.precurveTip = c (x.n - 1) <;> simp [ht, setAt]
  · funext i
    cases hc : x.presweep with
    | none => simp [setAt, Dtype.store]
    | some c =>
      simp only [Option.isNone_some, Option.getD_some, num_real, Bool.false_eq_true, if_false, tipPlace]
      by_cases ht : x.presweepTip = c (x.n - 1) <;> simp [ht, setAt]

section generic
variable {α : Type} [Num α]

/-- **C108** Arrays of doubles are those of all other theorems: the constructor and the loop over the blade are `CCArgs.build` and
`solveStation`. -/
theorem build_typed_float (x : CCArgs α) : x.buildTyped ⟨.float, .float, .float⟩ = x.build := by
  simp only [CCArgs.buildTyped, CCArgs.build, Dtype.store, ite_self]

/-- **C108** … and the loop over the blade. -/
theorem solveStation_typed_float (bq : RootFinder α) (R : Rotor α) (pitch Omega : α) (V : ℕ → α × α) (i : ℕ) :
    solveStationTyped .float bq R pitch Omega V i = solveStation bq R pitch Omega V i := by
  have h : ∀ phi, stationThetaTyped .float R pitch phi i = stationTheta R pitch phi i := fun phi => by
    unfold stationThetaTyped stationTheta
    cases R.inv <;> rfl
  simp only [solveStationTyped, solveStation, h]
  rfl

/-- **C108** Once the rotor is constructed, the type of the radii has no influence on the direct analysis. -/
theorem solveStation_typed_direct (t : Dtype) (bq : RootFinder α) (R : Rotor α) (hinv : R.inv = none) (pitch Omega : α) (V : ℕ → α × α)
    (i : ℕ) : solveStationTyped t bq R pitch Omega V i = solveStation bq R pitch Omega V i := by
  have h : ∀ phi, stationThetaTyped t R pitch phi i = stationTheta R pitch phi i := fun phi => by
    unfold stationThetaTyped stationTheta
    rw [hinv]
  simp only [solveStationTyped, solveStation, h]
  rfl

end generic

/-! ## The constructor -/

/-- A whole number -/
def Whole (v : ℝ) : Prop := ∃ z : ℤ, v = z

/-- **C108** (partial) The exact condition: integer arrays give the same rotor as equal arrays of doubles if and only if every entry
that the constructor moves away from hub or tip is moved to a whole number; in particular when no end station coincides with hub or tip.
-/
theorem integer_rotor_iff_partial (t : ArgTypes) (x : CCArgs ℝ) (h : Increasing x.n x.r) :
    x.buildTyped t = x.build ↔
      (t.r = .int → x.Rhub = x.r 0 → Whole (hubPlace x)) ∧
      (t.r = .int → x.Rtip = x.r (x.n - 1) → Whole (tipPlace x x.r)) ∧
      (t.precurve = .int → ∀ c, x.precurve = some c → x.precurveTip = c (x.n - 1) → Whole (tipPlace x c)) ∧
      (t.presweep = .int → ∀ c, x.presweep = some c → x.presweepTip = c (x.n - 1) → Whole (tipPlace x c)) := by
  obtain ⟨R, S, hR, hS, e⟩ := buildTyped_arrays t x h
  obtain ⟨R', S', hR', hS', e'⟩ := buildTyped_arrays ⟨.float, .float, .float⟩ x h
  have hn := h.1
  rw [build_typed_float] at hS'
  obtain rfl : R = R' := by rw [hR] at hR'; exact Except.ok.inj hR'
  obtain rfl : R = S' := by rw [hR] at hS'; exact Except.ok.inj hS'
  rw [hR, hS]
  have key : ∀ (d : Dtype) (v : ℝ), (d = .int → Whole v) ↔ d.store v = v := by
    intro d v
    cases d with
    | float => simp [Dtype.store]
    | int => rw [store_int_eq_iff]; simp [Whole]
  have er := congrArg Rotor.r e'
  have ec := congrArg Rotor.precurve e'
  have ew := congrArg Rotor.presweep e'
  simp only [Dtype.store] at er ec ew
  constructor
  · intro hh
    have hSR : S = R := Except.ok.inj hh
    have fr := congrArg Rotor.r e
    have fc := congrArg Rotor.precurve e
    have fw := congrArg Rotor.presweep e
    rw [hSR] at fr fc fw
    simp only at fr fc fw
    refine ⟨fun h1 h2 => (key t.r _).2 ?_ h1, fun h1 h2 => (key t.r _).2 ?_ h1, fun h1 c hc h2 => (key t.precurve _).2 ?_ h1,
      fun h1 c hc h2 => (key t.presweep _).2 ?_ h1⟩
    · have g := congrFun (fr.symm.trans er) 0
      simpa [show ¬ 0 = x.n - 1 by omega, h2] using g
    · have g := congrFun (fr.symm.trans er) (x.n - 1)
      simpa [h2] using g
    · have g := congrFun (fc.symm.trans ec) (x.n - 1)
      simpa [h2, hc] using g
    · have g := congrFun (fw.symm.trans ew) (x.n - 1)
      simpa [h2, hc] using g
  · rintro ⟨h1, h2, h3, h4⟩
    congr 1
    rw [e]
    conv_rhs => rw [e']
    simp only [Rotor.mk.injEq, true_and, and_true, Dtype.store]
    refine ⟨?_, ?_, ?_⟩
    · funext i
      split_ifs with g1 g2
      · exact (key t.r _).1 (fun hi => h2 hi g1.2)
      · exact (key t.r _).1 (fun hi => h1 hi g2.2)
      · rfl
    · funext i
      cases hc : x.precurve with
      | none => rfl
      | some c =>
        simp only
        split_ifs with g1
        · exact (key t.precurve _).1 (fun hi => h3 hi c hc g1.2)
        · rfl
    · funext i
      cases hc : x.presweep with
      | none => rfl
      | some c =>
        simp only
        split_ifs with g1
        · exact (key t.presweep _).1 (fun hi => h4 hi c hc g1.2)
        · rfl

/-- Stations at whole numbers of metres -/
def WholeRadii (x : CCArgs ℝ) : Prop := ∀ i < x.n, ∃ m : ℕ, x.r i = m

theorem hubPlace_bounds (x : CCArgs ℝ) (h : Increasing x.n x.r) :
    x.r 0 < hubPlace x ∧ hubPlace x ≤ x.r 0 + (x.r (x.n - 1) - x.r 0) / 100 := by
  obtain ⟨b1, -⟩ := hubFrac_bounds h
  have h01 : x.r 0 < x.r 1 := h.2 0 1 (by omega) (by have := h.1; omega)
  have h0l : x.r 0 < x.r (x.n - 1) := h.2 0 (x.n - 1) (by have := h.1; omega) (by have := h.1; omega)
  unfold hubPlace
  refine ⟨by nlinarith, ?_⟩
  have a : 0 < x.r 1 - x.r 0 := by linarith
  have b : 0 < x.r (x.n - 1) - x.r 0 := by linarith
  have e : hubFrac x.n x.r * (x.r 1 - x.r 0) =
      min (1 / 100) ((x.r 1 - x.r 0) / (x.r (x.n - 1) - x.r 0) / 2) * (x.r (x.n - 1) - x.r 0) := by
    unfold hubFrac
    field_simp
  rw [e]
  have := mul_le_mul_of_nonneg_right (min_le_left (1 / 100 : ℝ) ((x.r 1 - x.r 0) / (x.r (x.n - 1) - x.r 0) / 2)) b.le
  linarith

theorem tipPlace_bounds (x : CCArgs ℝ) (h : Increasing x.n x.r) :
    x.r (x.n - 1) - (x.r (x.n - 1) - x.r 0) / 100 ≤ tipPlace x x.r ∧ tipPlace x x.r < x.r (x.n - 1) := by
  obtain ⟨-, b2⟩ := tipFrac_bounds h
  have hml : x.r (x.n - 2) < x.r (x.n - 1) := h.2 (x.n - 2) (x.n - 1) (by have := h.1; omega) (by have := h.1; omega)
  have h0l : x.r 0 < x.r (x.n - 1) := h.2 0 (x.n - 1) (by have := h.1; omega) (by have := h.1; omega)
  unfold tipPlace
  refine ⟨?_, by nlinarith⟩
  have a : 0 < x.r (x.n - 1) - x.r (x.n - 2) := by linarith
  have b : 0 < x.r (x.n - 1) - x.r 0 := by linarith
  have e : tipFrac x.n x.r * (x.r (x.n - 1) - x.r (x.n - 2)) =
      max (99 / 100) (((x.r (x.n - 2) - x.r 0) / (x.r (x.n - 1) - x.r 0) + 1) / 2) * (x.r (x.n - 1) - x.r 0) -
        (x.r (x.n - 2) - x.r 0) := by
    unfold tipFrac
    field_simp
  rw [e]
  have := mul_le_mul_of_nonneg_right
    (le_max_left (99 / 100 : ℝ) (((x.r (x.n - 2) - x.r 0) / (x.r (x.n - 1) - x.r 0) + 1) / 2)) b.le
  linarith

/-- **C108** (fails) Integer radii, a blade that begins at the hub and is shorter than 100 m: the first station, which the constructor
means to move away from the hub (C27), stays at the hub. -/
theorem integer_hub_station (t : ArgTypes) (x : CCArgs ℝ) (h : Increasing x.n x.r) (hw : WholeRadii x) (ht : t.r = .int)
    (hhub : x.Rhub = x.r 0) (hlen : x.r (x.n - 1) - x.r 0 < 100) : ∃ S, x.buildTyped t = .ok S ∧ S.r 0 = S.Rhub := by
  obtain ⟨R, S, hR, hS, e⟩ := buildTyped_arrays t x h
  have hn := h.1
  refine ⟨S, hS, ?_⟩
  obtain ⟨R', hR', -, hRh, -⟩ := build_arrays x h
  rw [hR] at hR'
  cases hR'
  obtain ⟨m, hm⟩ := hw 0 (by omega)
  obtain ⟨b1, b2⟩ := hubPlace_bounds x h
  rw [e]
  simp only [show ¬ 0 = x.n - 1 by omega, false_and, if_false, hhub, and_self, if_true, ht]
  rw [hRh, hhub, hm]
  exact store_int_between _ m (by rw [← hm]; exact b1.le) (by rw [← hm]; linarith)

/-- **C108** (fails) Integer radii, a blade that ends at the tip and is shorter than 100 m: the last station is moved one metre inwards
instead of at most one hundredth of the length.  Where the last segment is one metre long the last two stations coincide. -/
theorem integer_tip_station (t : ArgTypes) (x : CCArgs ℝ) (h : Increasing x.n x.r) (hw : WholeRadii x) (ht : t.r = .int)
    (htip : x.Rtip = x.r (x.n - 1)) (hlen : x.r (x.n - 1) - x.r 0 < 100) :
    ∃ S, x.buildTyped t = .ok S ∧ S.r (x.n - 1) = S.Rtip - 1 ∧
      (3 ≤ x.n → x.r (x.n - 1) = x.r (x.n - 2) + 1 → S.r (x.n - 1) = S.r (x.n - 2)) := by
  obtain ⟨R, S, hR, hS, e⟩ := buildTyped_arrays t x h
  have hn := h.1
  refine ⟨S, hS, ?_⟩
  obtain ⟨R', hR', -, -, hRt, -⟩ := build_arrays x h
  rw [hR] at hR'
  cases hR'
  obtain ⟨m0, hm0⟩ := hw 0 (by omega)
  obtain ⟨m, hm⟩ := hw (x.n - 1) (by omega)
  obtain ⟨b1, b2⟩ := tipPlace_bounds x h
  have h0l : x.r 0 < x.r (x.n - 1) := h.2 0 (x.n - 1) (by omega) (by omega)
  have hpos : 1 ≤ m := by
    rw [hm, hm0] at h0l
    have : m0 < m := by exact_mod_cast h0l
    omega
  have hlast : S.r (x.n - 1) = x.r (x.n - 1) - 1 := by
    rw [e]
    simp only [htip, and_self, if_true, ht]
    rw [store_int_between _ (m - 1) (by push_cast [hpos]; rw [← hm]; linarith) (by push_cast [hpos]; rw [← hm]; linarith), hm]
    push_cast [hpos]
    ring
  have hT : S.Rtip = x.r (x.n - 1) := by
    rw [e]
    exact hRt.trans htip
  refine ⟨by rw [hlast, hT], fun h3 h4 => ?_⟩
  have : S.r (x.n - 2) = x.r (x.n - 2) := by
    rw [e]
    simp only [show ¬ x.n - 2 = x.n - 1 by omega, show ¬ x.n - 2 = 0 by omega, false_and, if_false]
  rw [this, hlast, h4]
  ring

/-- **C108** (fails) Radii 10, 30 and 50 m, given as integers, hub and tip at 10 and 50 m: the stored radii are 10, 30 and 49, those of
the doubles 10.4, 30 and 49.6.  The rotor is another one, and its first station is at the hub. -/
theorem integer_rotor_false :
    ∃ R S, demoArgs.build = .ok R ∧ demoArgs.buildTyped ⟨.int, .float, .float⟩ = .ok S ∧
      R.r 0 = 52 / 5 ∧ R.r 2 = 248 / 5 ∧ S.r 0 = 10 ∧ S.r 2 = 49 ∧ S.Rhub = 10 ∧ S.Rtip = 50 ∧
      demoArgs.buildTyped ⟨.int, .float, .float⟩ ≠ demoArgs.build := by
  have hw : WholeRadii demoArgs := fun i _ => ⟨10 + 20 * i, by simp [demoArgs]⟩
  obtain ⟨S, hS, h0⟩ := integer_hub_station ⟨.int, .float, .float⟩ demoArgs demoArgs_increasing hw rfl (by simp [demoArgs])
    (by norm_num [demoArgs])
  obtain ⟨S', hS', h1, -⟩ := integer_tip_station ⟨.int, .float, .float⟩ demoArgs demoArgs_increasing hw rfl (by norm_num [demoArgs])
    (by norm_num [demoArgs])
  obtain rfl : S = S' := by rw [hS] at hS'; exact Except.ok.inj hS'
  obtain ⟨R, hR, -, hRh, hRt, hr, -⟩ := build_arrays demoArgs demoArgs_increasing
  obtain ⟨R', S'', hR', hS'', e⟩ := buildTyped_arrays ⟨.int, .float, .float⟩ demoArgs demoArgs_increasing
  obtain rfl : R = R' := by rw [hR] at hR'; exact Except.ok.inj hR'
  obtain rfl : S = S'' := by rw [hS] at hS''; exact Except.ok.inj hS''
  have e1 : S.Rhub = 10 := by rw [e]; exact hRh
  have e2 : S.Rtip = 50 := by rw [e]; exact hRt
  have r0 : R.r 0 = 52 / 5 := by
    rw [hr]
    norm_num [demoArgs, hubFrac]
  have r2 : R.r 2 = 248 / 5 := by
    rw [hr]
    norm_num [demoArgs, tipFrac]
  have s0 : S.r 0 = 10 := by rw [h0, e1]
  have s2 : S.r 2 = 49 := by
    have : S.r 2 = S.Rtip - 1 := h1
    rw [this, e2]
    norm_num
  refine ⟨R, S, hR, hS, r0, r2, s0, s2, e1, e2, fun hh => ?_⟩
  rw [hS, hR] at hh
  rw [Except.ok.inj hh, r0] at s0
  norm_num at s0

/-- Not vacuous: the same blade on a hub of 9 m with its tip at 51 m, and integer precurve, tip offset 3 m. -/
example : { demoArgs with Rhub := 9, Rtip := 51, precurveTip := 3 }.buildTyped ⟨.int, .int, .int⟩ =
    { demoArgs with Rhub := 9, Rtip := 51, precurveTip := 3 }.build := by
  refine (integer_rotor_iff_partial _ _ ?_).2 ⟨fun _ h => ?_, fun _ h => ?_, fun _ c hc h => ?_, fun _ c hc h => ?_⟩
  · exact demoArgs_increasing
  · norm_num [demoArgs] at h
  · norm_num [demoArgs] at h
  · simp only [demoArgs, Option.some.injEq] at hc
    subst hc
    norm_num [demoArgs] at h
  · simp [demoArgs] at hc

/-! ## A station at the hub -/

namespace XR

/-- An infinity or NaN -/
def InfOrNaN (v : XR) : Prop := ∀ x, v ≠ fin x

theorem infNan_cases {v : XR} (h : InfOrNaN v) : v = nan ∨ v = pinf ∨ v = ninf := by
  cases v with
  | nan => exact Or.inl rfl
  | pinf => exact Or.inr (Or.inl rfl)
  | ninf => exact Or.inr (Or.inr rfl)
  | fin x => exact absurd rfl (h x)

theorem infNan_div {v : XR} (h : InfOrNaN v) (w : XR) : InfOrNaN (v / w) := by
  intro y
  show XR.div v w ≠ fin y
  rcases infNan_cases h with rfl | rfl | rfl <;> cases w <;> simp only [XR.div, ne_eq, reduceCtorEq, not_false_eq_true] <;>
    split_ifs <;> simp

theorem infNan_div_zero (v : XR) : InfOrNaN (v / fin 0) := by
  intro y
  show XR.div v (fin 0) ≠ fin y
  cases v with
  | fin x => simp only [XR.div, if_true, infOf]; split_ifs <;> simp
  | _ => simp [XR.div]

/-- `v / (1 - v)` of an infinity is NaN. -/
theorem infNan_swirl {v : XR} (h : InfOrNaN v) : v / (1 - v) = nan := by
  rcases infNan_cases h with rfl | rfl | rfl <;> rfl

theorem zero_mul_cases (v : XR) : v * fin 0 = fin 0 ∨ v * fin 0 = nan := by
  show XR.mul v (fin 0) = _ ∨ XR.mul v (fin 0) = _
  cases v with
  | fin x => left; simp [XR.mul]
  | pinf => right; simp [XR.mul, infOf]
  | ninf => right; simp [XR.mul, infOf]
  | nan => right; rfl

end XR

open XR

/-- The hub loss factor at the hub is zero, or NaN. -/
theorem hubFactor_at_hub (B : ℕ) (h : ℝ) (sphi : XR) :
    hubFactor true B (fin h) (fin h) sphi = fin 0 ∨ hubFactor true B (fin h) (fin h) sphi = nan := by
  have e : (Num.nat B / Num.nat 2 * (fin h - fin h) : XR) = fin 0 := by
    rw [XR.fin_sub, XR.nat_eq, XR.nat_eq, XR.fin_div _ _ (by norm_num), XR.fin_mul]
    simp
  simp only [hubFactor, if_true, e]
  have hz : (fin 0 : XR) / (fin h * sphi) = fin 0 ∨ (fin 0 : XR) / (fin h * sphi) = nan := by
    generalize fin h * sphi = d
    show XR.div (fin 0) d = _ ∨ XR.div (fin 0) d = _
    cases d with
    | fin y => simp only [XR.div, infOf]; split_ifs <;> simp_all
    | _ => simp [XR.div]
  rcases hz with hz | hz
  · left
    rw [hz, XR.fin_neg, XR.exp_fin, XR.acos_fin _ (by simp) (by simp), XR.pi_eq, XR.nat_eq,
      XR.fin_div _ _ (by unfold dpi; norm_num), XR.fin_mul]
    simp
  · right
    rw [hz]
    show _ * Num.acos (Num.exp nan) = nan
    exact XR.mul_nan _

/-- With hub loss and wake rotation the tangential induction factor at the hub is NaN, whatever the inflow angle and the airfoil. -/
theorem hub_induction_nan (h : ℝ) (chord Rtip phi cl cd : XR) (B : ℕ) (Vx Vy : XR) (o : BemOpts) (ho : o.hubLoss = true)
    (hw : o.wakeRot = true) : (inductionFactors (fin h) chord (fin h) Rtip phi cl cd B Vx Vy o).ap = nan := by
  simp only [inductionFactors, ho, hw, Bool.not_true, Bool.false_eq_true, if_false]
  apply infNan_swirl
  unfold bemKp
  apply infNan_div
  apply infNan_div
  rcases hubFactor_at_hub B h (Num.sin phi) with e | e <;> rw [e]
  · rcases zero_mul_cases (tipFactor o.tipLoss B (fin h) Rtip (Num.sin phi)) with e' | e' <;> rw [e']
    · exact infNan_div_zero _
    · rw [XR.div_nan]
      intro y
      simp
  · rw [XR.mul_nan, XR.div_nan]
    intro y
    simp

theorem relSpeed_nan (phi a Vx Vy : XR) : relSpeed phi a nan Vx Vy = nan := by
  have h : ¬ (Num.nat 10 : XR) < nabs nan := by
    have : nabs (nan : XR) = nan := by
      unfold nabs
      rw [if_neg (XR.nanLaws.lt_left nan 0 rfl)]
    rw [this]
    exact XR.nanLaws.lt_right _ nan rfl
  unfold relSpeed
  rw [if_neg h, XR.add_nan, XR.mul_nan, XR.nan_div]
  split_ifs
  · rfl
  · rw [show sq (nan : XR) = nan from rfl, XR.add_nan]
    rfl

/-- **C108** (fails) The consequence, in arithmetic with infinities and NaN: a station left at the hub radius of a rotating rotor with hub
loss and wake rotation (the defaults) carries no load, whatever wind, airfoil and root finder. -/
theorem hub_station_unloaded (bq : RootFinder XR) (R : Rotor XR) (h : ℝ) (hhub : R.Rhub = fin h) (i : ℕ) (hr : R.r i = fin h)
    (ho : R.opts.hubLoss = true) (hw : R.opts.wakeRot = true) (pitch Omega : XR) (hO : (Omega == 0) = false) (V : ℕ → XR × XR)
    (s : Station XR) (hs : solveStation bq R pitch Omega V i = .ok s) : s.loads.Np = 0 ∧ s.loads.Tp = 0 := by
  obtain ⟨l, d, h1, h2, h3, h4, -, -⟩ := solveStation_ok hs
  rw [h4]
  unfold secLoads at h3
  dsimp only at h3
  split_ifs at h3
  · have hl : l = secValues R pitch s.phi (!(Omega == 0)) (stationSec R V i s.theta) := by
      cases h3; rfl
    have hap : (runBEM R pitch s.phi (stationSec R V i s.theta)).ap = nan := by
      have : ∀ (k : ℕ) (o : BemOut XR), o.ap = nan → (bemPasses R pitch s.phi (stationSec R V i s.theta) k o).ap = nan := by
        intro k
        induction k with
        | zero => intro o ho; exact ho
        | succ k ih =>
          intro o _
          apply ih
          simp only [bemPass, stationSec, hr, hhub]
          exact hub_induction_nan _ _ _ _ _ _ _ _ _ _ ho hw
      apply this
      simp only [bemPass, stationSec, hr, hhub]
      exact hub_induction_nan _ _ _ _ _ _ _ _ _ _ ho hw
    have hN : l.Np = nan := by
      rw [hl]
      simp only [secValues, hO, Bool.not_false, if_true, hap, relativeWind, relSpeed_nan]
      rw [show sq (nan : XR) = nan from rfl, XR.mul_nan, XR.mul_nan, XR.nan_mul]
    rw [hN]
    exact ⟨rfl, rfl⟩
  · cases h3
    simp only
    split_ifs <;> exact ⟨rfl, rfl⟩

/-- Not vacuous: the rotor of C32 on a hub of 10 m, in a wind, with a root finder that returns 0.1. -/
example : ∃ s, solveStation (fun _ _ _ => .ok (fin (1 / 10))) { brakeRotor with Rhub := fin 10 } (fin 0) (fin 10)
    (fun _ => (fin 1, fin 10)) 0 = .ok s ∧ s.loads.Np = 0 ∧ s.loads.Tp = 0 := by
  have hb : (fin 10 == (0 : XR)) = false := by
    show decide ((10 : ℝ) = 0) = false
    simp
  have hok : ∃ s, solveStation (fun _ _ _ => .ok (fin (1 / 10))) { brakeRotor with Rhub := fin 10 } (fin 0) (fin 10)
      (fun _ => (fin 1, fin 10)) 0 = .ok s := by
    unfold solveStation stationPhi
    rw [hb, if_neg (by simp), if_neg (by simp [brakeRotor])]
    simp only [solvePhi, secLoads, brakeRotor, Bool.false_and, Bool.false_eq_true, if_false, Bool.and_false]
    split_ifs <;> exact ⟨_, rfl⟩
  obtain ⟨s, hs⟩ := hok
  exact ⟨s, hs, hub_station_unloaded _ { brakeRotor with Rhub := fin 10 } 10 rfl 0 rfl rfl rfl _ _ hb _ s hs⟩

/-! ## The inverse analysis -/

/-- **C108** (partial) The inverse analysis with integer radii: the stored twist is the wanted one cut to a whole number of radians, and
the prescribed angle of attack is met (C43) if and only if nothing is cut. -/
theorem integer_inverse_iff_partial (bq : RootFinder ℝ) (R : Rotor ℝ) (d : InvData ℝ) (hinv : R.inv = some d) (pitch Omega : ℝ)
    (V : ℕ → ℝ × ℝ) (i : ℕ) (s : Station ℝ) (hs : solveStationTyped .int bq R pitch Omega V i = .ok s) :
    Whole s.theta ∧ |s.phi - d.alpha i - pitch - s.theta| < 1 ∧
      (s.phi - s.theta - pitch = d.alpha i ↔ Whole (s.phi - d.alpha i - pitch)) ∧
      (|s.phi - d.alpha i - pitch| < 1 → s.theta = 0) ∧
      ((V i).1 ≠ 0 → (V i).2 ≠ 0 → s.loads.alpha = (s.phi - s.theta - pitch) * (180 / Real.pi)) := by
  unfold solveStationTyped at hs
  split at hs
  · exact absurd hs (by simp)
  rename_i phi w h1
  simp only at hs
  split at hs
  · exact absurd hs (by simp)
  rename_i l e h2
  simp only [real_isNaN, Bool.false_and, Bool.false_eq_true, if_false, Except.ok.injEq] at hs
  subst hs
  have ht : stationThetaTyped .int R pitch phi i = Dtype.int.store (phi - d.alpha i - pitch) := by
    simp only [stationThetaTyped, hinv]
  simp only [ht] at h2 ⊢
  refine ⟨?_, ?_, ?_, ?_, ?_⟩
  · rw [real_store_int]
    exact ⟨_, rfl⟩
  · rw [real_store_int]
    generalize phi - d.alpha i - pitch = v
    split_ifs with h0
    · rw [abs_lt]
      constructor <;> linarith [Int.floor_le v, Int.lt_floor_add_one v]
    · rw [abs_lt]
      constructor <;> linarith [Int.le_ceil v, Int.ceil_lt_add_one v]
  · rw [show Whole (phi - d.alpha i - pitch) ↔ Dtype.int.store (phi - d.alpha i - pitch) = phi - d.alpha i - pitch from
      (store_int_eq_iff _).symm]
    constructor <;> intro h <;> linarith
  · intro h
    rw [real_store_int]
    generalize phi - d.alpha i - pitch = v at h
    rw [abs_lt] at h
    split_ifs with h0
    · rw [Int.floor_eq_zero_iff.2 ⟨h0, h.2⟩]
      simp
    · have : ⌈v⌉ = 0 := by
        rw [Int.ceil_eq_zero_iff]
        exact ⟨h.1, by linarith⟩
      rw [this]
      simp
  · intro hx hy
    unfold secLoads at h2
    dsimp only at h2
    have g : (!((stationSec R V i (Dtype.int.store (phi - d.alpha i - pitch))).Vx == 0) &&
        !((stationSec R V i (Dtype.int.store (phi - d.alpha i - pitch))).Vy == 0)) = true := by
      simp [stationSec, num_real, hx, hy]
    rw [if_pos g] at h2
    split_ifs at h2
    have hl : l = secValues R pitch phi (!(Omega == 0)) (stationSec R V i (Dtype.int.store (phi - d.alpha i - pitch))) := by
      cases h2; rfl
    rw [hl]
    simp only [secValues, relativeWind, stationSec, rad2deg, num_real]
    push_cast
    ring

/-- **C108** (fails) A rotor at rest in the inverse analysis for the angle of attack `π/2 - 1/2`: the twist that meets it is half a
radian; with integer radii the stored twist is zero and the angle of attack reported another one. -/
theorem integer_inverse_false : ∃ s t,
    solveStation demoBq { demoRotor with inv := some ⟨fun _ => Real.pi / 2 - 1 / 2, fun _ => 1, fun _ => 0⟩ } 0 0
      (fun _ => (1, 1)) 0 = .ok t ∧ t.theta = 1 / 2 ∧ t.loads.alpha = (Real.pi / 2 - 1 / 2) * (180 / Real.pi) ∧
    solveStationTyped .int demoBq { demoRotor with inv := some ⟨fun _ => Real.pi / 2 - 1 / 2, fun _ => 1, fun _ => 0⟩ } 0 0
      (fun _ => (1, 1)) 0 = .ok s ∧ s.theta = 0 ∧ s.loads.alpha = 90 := by
  have hok : ∀ d, ∃ s, solveStationTyped d demoBq
      { demoRotor with inv := some ⟨fun _ => Real.pi / 2 - 1 / 2, fun _ => 1, fun _ => 0⟩ } 0 0 (fun _ => (1, 1)) 0 = .ok s ∧
      s.phi = Real.pi / 2 ∧ s.theta = d.store (1 / 2) ∧ s.loads.alpha = (Real.pi / 2 - d.store (1 / 2)) * (180 / Real.pi) := by
    intro d
    have e : Real.pi / 2 - (Real.pi / 2 - 1 / 2) - 0 = (1 / 2 : ℝ) := by ring
    refine ⟨_, by
      unfold solveStationTyped stationPhi
      rw [if_pos (by simp [num_real])]
      simp only [secLoads, stationSec, num_real, demoRotor, one_ne_zero, decide_false, Bool.not_false, Bool.and_self, if_true,
        Bool.false_and, Bool.false_eq_true, if_false, stationThetaTyped]
      rfl, ?_, ?_, ?_⟩
    · simp
    · simp only [Nat.cast_ofNat]
      rw [e]
    · simp only [secValues, relativeWind, rad2deg, num_real, Nat.cast_ofNat]
      rw [e]
      ring
  obtain ⟨t, h1, -, h2, h3⟩ := hok .float
  obtain ⟨s, g1, -, g2, g3⟩ := hok .int
  have hz : Dtype.int.store (1 / 2 : ℝ) = 0 := by
    have := store_int_between (1 / 2) 0 (by norm_num) (by norm_num)
    simpa using this
  rw [hz] at g2 g3
  rw [solveStation_typed_float] at h1
  refine ⟨s, t, h1, h2, h3, g1, g2, ?_⟩
  rw [g3]
  have := Real.pi_ne_zero
  field_simp
  ring

end Verif
