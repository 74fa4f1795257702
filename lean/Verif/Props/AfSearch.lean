import Verif.Lemmas.AfSearch
import Verif.Model.Component
import Verif.Props.LoadsDeriv

/-!
# Airfoil objects (C52, C53, C54)
-/

namespace Verif

/-! ## The constructor, `evaluate`, `derivatives` -/

section generic
variable {α : Type} [Num α]

/-- **C52** Fewer than two angles of attack are rejected with `ValueError`, whatever the spline routine does. -/
theorem airfoil_needs_two_angles (fit : SplineFit α) (alphaDeg Re : List α) (cl cd cm : Mat α) (h : alphaDeg.length < 2) :
    CCAf.build fit alphaDeg Re cl cd cm = .error .valueError := by
  have h' : (alphaDeg.map (deg2rad : α → α)).length < 2 := by simpa using h
  unfold CCAf.build
  simp only [h', if_true]
  rfl

/-- **C52** What the splines are fitted to: the tables themselves, or two copies of their column at the Reynolds numbers 10 and
10^15 when fewer than two Reynolds numbers are given, with degrees min(len - 1, 3); a moment spline exactly when moments are
given. -/
theorem airfoil_fits (fit : SplineFit α) (alphaDeg Re : List α) (cl cd cm : Mat α) (af : CCAf α)
    (h : CCAf.build fit alphaDeg Re cl cd cm = .ok af) :
    let two := fun m : Mat α => if Re.length < 2 then matTwice m else m
    let Re' := if Re.length < 2 then [Num.nat 10, Num.nat (10 ^ 15)] else Re
    let kx := min (alphaDeg.length - 1) 3
    let ky := if Re.length < 2 then 1 else min (Re.length - 1) 3
    2 ≤ alphaDeg.length ∧ af.alpha = alphaDeg.map deg2rad ∧ (af.oneRe = true ↔ Re.length < 2) ∧
    fit (alphaDeg.map deg2rad) Re' (two cl) kx ky (Num.nat 1 / Num.nat 10) = .ok af.cl ∧
    fit (alphaDeg.map deg2rad) Re' (two cd) kx ky (Num.nat 1 / Num.nat 1000) = .ok af.cd ∧
    (cm.rows = 0 → af.cm = none) ∧
    (0 < cm.rows → ∃ s, af.cm = some s ∧ fit (alphaDeg.map deg2rad) Re' (two cm) kx ky (Num.nat 1 / Num.nat 10000) = .ok s) := by
  intro two Re' kx ky
  have hlen : ¬ alphaDeg.length < 2 := fun hl => by rw [airfoil_needs_two_angles fit _ Re cl cd cm hl] at h; cases h
  have hky : min (Re'.length - 1) 3 = ky := by
    simp only [Re', ky]
    split_ifs <;> simp
  unfold CCAf.build at h
  simp only [List.length_map, hlen, if_false] at h
  change (do
    let scl ← fit (alphaDeg.map deg2rad) Re' (two cl) kx (min (Re'.length - 1) 3) (Num.nat 1 / Num.nat 10)
    let scd ← fit (alphaDeg.map deg2rad) Re' (two cd) kx (min (Re'.length - 1) 3) (Num.nat 1 / Num.nat 1000)
    if 0 < cm.rows then do
      let scm ← fit (alphaDeg.map deg2rad) Re' (two cm) kx (min (Re'.length - 1) 3) (Num.nat 1 / Num.nat 10000)
      return ⟨alphaDeg.map deg2rad, decide (Re.length < 2), scl, scd, some scm⟩
    else return ⟨alphaDeg.map deg2rad, decide (Re.length < 2), scl, scd, none⟩ : Except PyErr (CCAf α)) = .ok af at h
  rw [hky] at h
  cases e1 : fit (alphaDeg.map deg2rad) Re' (two cl) kx ky (Num.nat 1 / Num.nat 10) with
  | error x => rw [e1] at h; cases h
  | ok scl =>
    rw [e1] at h
    cases e2 : fit (alphaDeg.map deg2rad) Re' (two cd) kx ky (Num.nat 1 / Num.nat 1000) with
    | error x => rw [e2] at h; cases h
    | ok scd =>
      rw [e2] at h
      by_cases hm : 0 < cm.rows
      · cases e3 : fit (alphaDeg.map deg2rad) Re' (two cm) kx ky (Num.nat 1 / Num.nat 10000) with
        | error x => rw [e3] at h; simp only [hm, if_true] at h; cases h
        | ok scm =>
          rw [e3] at h
          simp only [hm, if_true] at h
          cases h
          exact ⟨by omega, rfl, by simp, rfl, rfl, by omega, fun _ => ⟨scm, rfl, rfl⟩⟩
      · simp only [hm, if_false] at h
        cases h
        exact ⟨by omega, rfl, by simp, rfl, rfl, fun _ => rfl, fun h' => absurd h' hm⟩

/-- The one thing assumed of the spline routine: a table whose columns are all equal is fitted by a surface that does not depend
on the column variable. -/
def SplineFit.KeepsConstancy (fit : SplineFit α) : Prop :=
  ∀ (x y : List α) (z : Mat α) (kx ky : ℕ) (s : α) (S : Spline α), fit x y z kx ky s = .ok S →
    (∀ i j j' : ℕ, j < z.cols → j' < z.cols → z.get i j = z.get i j') → ∀ a b b', S.ev a b = S.ev a b'

/-- **C52** With fewer than two Reynolds numbers the coefficients do not depend on the Reynolds number, and the reported
derivatives with respect to it are zero. -/
theorem airfoil_single_Re (fit : SplineFit α) (hfit : fit.KeepsConstancy) (alphaDeg Re : List α) (cl cd cm : Mat α)
    (af : CCAf α) (h : CCAf.build fit alphaDeg Re cl cd cm = .ok af) (hRe : Re.length < 2)
    (hcl : cl.cols = 1) (hcd : cd.cols = 1) (hcm : cm.cols = 1) :
    (∀ alpha Re₁ Re₂ b, af.evaluate alpha Re₁ b = af.evaluate alpha Re₂ b) ∧
    ∀ alpha Re₁ d, af.derivatives alpha Re₁ = .ok d → d.2.1 = 0 ∧ d.2.2.2 = 0 := by
  obtain ⟨-, -, hone, hl, hd, hm0, hm1⟩ := airfoil_fits fit alphaDeg Re cl cd cm af h
  simp only [hRe, if_true, iff_true] at hone hl hd hm0 hm1
  have hcols : ∀ m : Mat α, m.cols = 1 → ∀ i j j' : ℕ, j < (matTwice m).cols → j' < (matTwice m).cols →
      (matTwice m).get i j = (matTwice m).get i j' := by
    intro m hm i j j' hj hj'
    simp only [matTwice, hm] at hj hj' ⊢
    have h1 : ∀ k : ℕ, k < 2 → (if k < 1 then m.get i k else m.get i (k - 1)) = m.get i 0 := by
      intro k hk
      obtain rfl | rfl : k = 0 ∨ k = 1 := by omega
      · simp
      · simp
    rw [h1 j hj, h1 j' hj']
  constructor
  · intro alpha Re₁ Re₂ b
    unfold CCAf.evaluate
    rw [hfit _ _ _ _ _ _ _ hl (hcols cl hcl) alpha Re₁ Re₂, hfit _ _ _ _ _ _ _ hd (hcols cd hcd) alpha Re₁ Re₂]
    by_cases hr : 0 < cm.rows
    · obtain ⟨s, es, hs⟩ := hm1 hr
      rw [es, Option.map_some, Option.map_some, hfit _ _ _ _ _ _ _ hs (hcols cm hcm) alpha Re₁ Re₂]
    · rw [hm0 (by omega)]; rfl
  · intro alpha Re₁ d hdv
    unfold CCAf.derivatives at hdv
    rw [hone] at hdv
    cases e1 : af.cl.dx alpha Re₁ with
    | error x => rw [e1] at hdv; cases hdv
    | ok u =>
      cases e2 : af.cd.dx alpha Re₁ with
      | error x => rw [e1, e2] at hdv; cases hdv
      | ok w =>
        rw [e1, e2] at hdv
        cases hdv
        exact ⟨rfl, rfl⟩

/-- **C52** `evaluate` returns the values of the fitted splines at the angle and Reynolds number asked for, and the moment as a
third value exactly when it is requested and a moment table was given. -/
theorem airfoil_values (fit : SplineFit α) (alphaDeg Re : List α) (cl cd cm : Mat α) (af : CCAf α)
    (h : CCAf.build fit alphaDeg Re cl cd cm = .ok af) (alpha R : α) (b : Bool) :
    (af.evaluate alpha R b).1 = af.cl.ev alpha R ∧ (af.evaluate alpha R b).2.1 = af.cd.ev alpha R ∧
    (b = true → ∀ s, af.cm = some s → (af.evaluate alpha R b).2.2 = some (s.ev alpha R)) ∧
    ((af.evaluate alpha R b).2.2.isSome = true ↔ b = true ∧ 0 < cm.rows) := by
  obtain ⟨-, -, -, -, -, hm0, hm1⟩ := airfoil_fits fit alphaDeg Re cl cd cm af h
  refine ⟨rfl, rfl, ?_, ?_⟩
  · rintro rfl s hs
    simp [CCAf.evaluate, hs]
  · by_cases hr : 0 < cm.rows
    · obtain ⟨s, es, -⟩ := hm1 hr
      cases b <;> simp [CCAf.evaluate, es, hr]
    · have e := hm0 (by omega)
      cases b <;> simp [CCAf.evaluate, e]; omega

/-- **C52** The derivatives with respect to the angle are those of the splines.  With one Reynolds number the others are zero; with
two or more they are those of the splines, and where the spline routine refuses the derivative with respect to the Reynolds number
for lift or drag, both are reported as zero. -/
theorem airfoil_derivatives (af : CCAf α) (alpha Re a b : α) (ha : af.cl.dx alpha Re = .ok a)
    (hb : af.cd.dx alpha Re = .ok b) :
    (af.oneRe = true → af.derivatives alpha Re = .ok (a, 0, b, 0)) ∧
    (af.oneRe = false → ∀ u w, af.cl.dy alpha Re = .ok u → af.cd.dy alpha Re = .ok w →
      af.derivatives alpha Re = .ok (a, u, b, w)) ∧
    ((∃ e, af.cl.dy alpha Re = .error e) ∨ (∃ e, af.cd.dy alpha Re = .error e) →
      af.derivatives alpha Re = .ok (a, 0, b, 0)) := by
  unfold CCAf.derivatives reDerivs
  rw [ha, hb]
  refine ⟨?_, ?_, ?_⟩
  · intro h; rw [h]; rfl
  · intro h u w hu hw
    rw [h, hu, hw]; rfl
  · rintro (⟨e, he⟩ | ⟨e, he⟩)
    · rw [he]; cases af.oneRe <;> cases af.cd.dy alpha Re <;> rfl
    · rw [he]; cases af.oneRe <;> cases af.cl.dy alpha Re <;> rfl

end generic

/-- **C52** The airfoil object of a table with one Reynolds number satisfies the hypothesis under which the load and rotor
derivatives are exact. -/
theorem airfoil_single_Re_exact (fit : SplineFit ℝ) (hfit : fit.KeepsConstancy) (alphaDeg Re : List ℝ) (cl cd cm : Mat ℝ)
    (af : CCAf ℝ) (h : CCAf.build fit alphaDeg Re cl cd cm = .ok af) (hRe : Re.length < 2)
    (hcl : cl.cols = 1) (hcd : cd.cols = 1) (hcm : cm.cols = 1) : af.toI.ReIndependent := by
  intro a R1 R2
  have := (airfoil_single_Re fit hfit alphaDeg Re cl cd cm af h hRe hcl hcd hcm).1 a R1 R2 false
  simp only [CCAf.toI, this]

/-- A spline routine meeting the assumption (a plane through three corners of the table). -/
noncomputable def cornerFit : SplineFit ℝ := fun _ _ z _ _ _ =>
  .ok ⟨fun a b => z.get 0 0 + a * (z.get 1 0 - z.get 0 0) + b * (z.get 0 (z.cols - 1) - z.get 0 0),
    fun _ _ => .ok (z.get 1 0 - z.get 0 0), fun _ _ => .ok (z.get 0 (z.cols - 1) - z.get 0 0)⟩

theorem cornerFit_keeps : cornerFit.KeepsConstancy := by
  intro x y z kx ky s S hS hz a b b'
  cases hS
  have : z.get 0 (z.cols - 1) = z.get 0 0 := by
    rcases Nat.eq_zero_or_pos z.cols with h0 | h0
    · rw [h0]
    · exact hz 0 _ _ (by omega) h0
  simp only [this, sub_self, mul_zero]

/-- The hypotheses of C52 are met by a table with three angles and one Reynolds number. -/
example : ∃ af, CCAf.build cornerFit [-10, 0, 10] [(1000000 : ℝ)] ⟨3, 1, fun i _ => (i : ℝ)⟩ ⟨3, 1, fun _ _ => 1 / 100⟩
    ⟨0, 1, fun _ _ => 0⟩ = .ok af ∧ af.toI.ReIndependent ∧ af.evaluate 1 5 false = (1, 1 / 100, none) := by
  have e : CCAf.build cornerFit [-10, 0, 10] [(1000000 : ℝ)] ⟨3, 1, fun i _ => (i : ℝ)⟩ ⟨3, 1, fun _ _ => 1 / 100⟩
    ⟨0, 1, fun _ _ => 0⟩ = .ok _ := rfl
  refine ⟨_, e, airfoil_single_Re_exact cornerFit cornerFit_keeps _ _ _ _ _ _ e (by simp) rfl rfl rfl, ?_⟩
  simp [CCAf.evaluate, matTwice]

/-! ## The searches -/

theorem isCylinder_ok (af : CCAf ℝ) (i k : ℕ) (a b : ℝ) (hi : NearestRow af.alpha (-20 * (Real.pi / 180)) i a)
    (hk : NearestRow af.alpha (40 * (Real.pi / 180)) k b) : af.isCylinder = .ok (decide (k ≤ i)) := by
  unfold CCAf.isCylinder
  rw [nearest_of (by simpa [num_real] using hi), nearest_of (by simpa [num_real] using hk)]
  simp only [bind, Except.bind, pure, Except.pure]
  rw [pySlice_isEmpty _ _ _ hk.lt]

theorem sweep_column (f : ℝ → ℝ) (k : ℕ) (hk : k ≤ 200) :
    ((searchGrid : List ℝ).map f)[k]? = some (f (sweepAngle k)) := by
  rw [List.getElem?_map, searchGrid_getElem? k hk, Option.map_some]

theorem sweep_firstMax (f : ℝ → ℝ) : ∃ k : ℕ, k ≤ 200 ∧ npArgmax ((searchGrid : List ℝ).map f) = .ok k ∧
    (∀ j : ℕ, j ≤ 200 → f (sweepAngle j) ≤ f (sweepAngle k)) ∧ ∀ j : ℕ, j < k → f (sweepAngle j) < f (sweepAngle k) := by
  have hne : (searchGrid : List ℝ).map f ≠ [] := by
    intro h
    have := congrArg List.length h
    simp [searchGrid_length] at this
  obtain ⟨k, b, h1, h2⟩ := npArgmax_spec _ hne
  have hk : k ≤ 200 := by
    have := h2.lt
    rw [List.length_map, searchGrid_length] at this
    omega
  have hb : b = f (sweepAngle k) := by
    have := h2.1
    rw [sweep_column f k hk] at this
    exact (Option.some.inj this).symm
  exact ⟨k, hk, h1, fun j hj => hb ▸ h2.2.1 j _ (sweep_column f j hj), fun j hj => hb ▸ h2.2.2 j _ hj (sweep_column f j (by omega))⟩

/-- **C53** On a table with different rows nearest to -20 and 40 degrees, `max_eff` returns an angle of the search grid (-20 to
40 degrees in steps of 0.3) together with its coefficients; no other searched angle has a larger ratio of lift to drag, and no
earlier one an equal ratio. -/
theorem maxEff_best (af : CCAf ℝ) (Re : ℝ) (hs : af.alpha.Pairwise (· < ·)) (i i' : ℕ) (a a' : ℝ)
    (hi : NearestRow af.alpha (-20 * (Real.pi / 180)) i a) (hi' : NearestRow af.alpha (40 * (Real.pi / 180)) i' a') (hne : i ≠ i')
    (hcd : ∀ j : ℕ, j ≤ 200 → 0 < af.cd.ev (sweepAngle j) Re) :
    ∃ (k : ℕ) (p : AfPoint ℝ), af.maxEff Re = .ok p ∧ k ≤ 200 ∧ p.alpha = sweepAngle k ∧
      p.cl = af.cl.ev p.alpha Re ∧ p.cd = af.cd.ev p.alpha Re ∧ p.eff * p.cd = p.cl ∧
      (∀ j : ℕ, j ≤ 200 → af.cl.ev (sweepAngle j) Re ≤ p.eff * af.cd.ev (sweepAngle j) Re) ∧
      ∀ j : ℕ, j < k → af.cl.ev (sweepAngle j) Re < p.eff * af.cd.ev (sweepAngle j) Re := by
  have hlt : ¬ i' ≤ i := by
    have := hi.mono hs (by have := Real.pi_pos; nlinarith) hi'
    omega
  have hcyl := isCylinder_ok af i i' a a' hi hi'
  obtain ⟨k, hk, h1, h2, h3⟩ := sweep_firstMax (fun x => af.cl.ev x Re / af.cd.ev x Re)
  have hz : List.zipWith (fun x y => x / y) ((searchGrid : List ℝ).map fun x => af.cl.ev x Re)
      ((searchGrid : List ℝ).map fun x => af.cd.ev x Re) = (searchGrid : List ℝ).map fun x => af.cl.ev x Re / af.cd.ev x Re := by
    rw [List.zipWith_map]
    exact List.zipWith_self
  refine ⟨k, ⟨af.cl.ev (sweepAngle k) Re / af.cd.ev (sweepAngle k) Re, sweepAngle k, af.cl.ev (sweepAngle k) Re,
    af.cd.ev (sweepAngle k) Re⟩, ?_, hk, rfl, rfl, rfl, ?_, ?_, ?_⟩
  · unfold CCAf.maxEff
    rw [hcyl]
    simp only [bind, Except.bind, hlt, decide_false, Bool.false_eq_true, if_false, hz, h1]
    rw [pyGet_ok (sweep_column (fun x => af.cl.ev x Re / af.cd.ev x Re) k hk), pyGet_ok (searchGrid_getElem? k hk),
      pyGet_ok (sweep_column (fun x => af.cl.ev x Re) k hk), pyGet_ok (sweep_column (fun x => af.cd.ev x Re) k hk)]
    rfl
  · exact div_mul_cancel₀ _ (hcd k hk).ne'
  · intro j hj
    exact (div_le_iff₀ (hcd j hj)).mp (h2 j hj)
  · intro j hj
    exact (div_lt_iff₀ (hcd j (by omega))).mp (h3 j hj)

/-- **C53** When the same row of the table is nearest to -20 and to 40 degrees (a cylinder), the angle 0 is returned. -/
theorem maxEff_cylinder (af : CCAf ℝ) (Re : ℝ) (i : ℕ) (a : ℝ) (hi : NearestRow af.alpha (-20 * (Real.pi / 180)) i a)
    (hi' : NearestRow af.alpha (40 * (Real.pi / 180)) i a) :
    af.maxEff Re = .ok ⟨af.cl.ev 0 Re / af.cd.ev 0 Re, 0, af.cl.ev 0 Re, af.cd.ev 0 Re⟩ := by
  unfold CCAf.maxEff
  rw [isCylinder_ok af i i a a hi hi']
  simp only [le_refl, decide_true]
  rfl

/-- **C54** On a table with different rows nearest to -20 and 40 degrees, `awayfromstall` returns the searched angle of largest
lift (the first one) less the margin in degrees, together with the coefficients at that angle. -/
theorem awayFromStall_margin (af : CCAf ℝ) (Re margin : ℝ) (hs : af.alpha.Pairwise (· < ·)) (i i' : ℕ) (a a' : ℝ)
    (hi : NearestRow af.alpha (-20 * (Real.pi / 180)) i a) (hi' : NearestRow af.alpha (40 * (Real.pi / 180)) i' a') (hne : i ≠ i') :
    ∃ (k : ℕ) (p : AfPoint ℝ), af.awayFromStall Re margin = .ok p ∧ k ≤ 200 ∧
      p.alpha = sweepAngle k - margin * (Real.pi / 180) ∧
      (∀ j : ℕ, j ≤ 200 → af.cl.ev (sweepAngle j) Re ≤ af.cl.ev (sweepAngle k) Re) ∧
      (∀ j : ℕ, j < k → af.cl.ev (sweepAngle j) Re < af.cl.ev (sweepAngle k) Re) ∧
      p.cl = af.cl.ev p.alpha Re ∧ p.cd = af.cd.ev p.alpha Re ∧ (p.cd ≠ 0 → p.eff * p.cd = p.cl) := by
  have hlt : ¬ i' ≤ i := by
    have := hi.mono hs (by have := Real.pi_pos; nlinarith) hi'
    omega
  have hcyl := isCylinder_ok af i i' a a' hi hi'
  obtain ⟨k, hk, h1, h2, h3⟩ := sweep_firstMax (fun x => af.cl.ev x Re)
  set op := sweepAngle k - margin * (Real.pi / 180) with hop
  refine ⟨k, ⟨af.cl.ev op Re / af.cd.ev op Re, op, af.cl.ev op Re, af.cd.ev op Re⟩, ?_, hk, rfl, h2, h3, rfl, rfl,
    fun h => div_mul_cancel₀ _ h⟩
  unfold CCAf.awayFromStall
  rw [hcyl]
  simp only [bind, Except.bind, hlt, decide_false, Bool.false_eq_true, if_false, h1, pyGet_ok (searchGrid_getElem? k hk), num_real]
  rfl

/-- **C54** For a cylinder the angle 0 is returned, whatever the margin. -/
theorem awayFromStall_cylinder (af : CCAf ℝ) (Re margin : ℝ) (i : ℕ) (a : ℝ)
    (hi : NearestRow af.alpha (-20 * (Real.pi / 180)) i a) (hi' : NearestRow af.alpha (40 * (Real.pi / 180)) i a) :
    af.awayFromStall Re margin = .ok ⟨af.cl.ev 0 Re / af.cd.ev 0 Re, 0, af.cl.ev 0 Re, af.cd.ev 0 Re⟩ := by
  unfold CCAf.awayFromStall
  rw [isCylinder_ok af i i a a hi hi']
  simp only [le_refl, decide_true]
  rfl

/-- An airfoil with lift rising linearly and constant drag, tabulated at -180, -20, 40 and 180 degrees. -/
noncomputable def risingAf : CCAf ℝ :=
  ⟨[-180, -20, 40, 180].map (fun a => a * (Real.pi / 180)), true, ⟨fun a _ => a, fun _ _ => .ok 1, fun _ _ => .ok 0⟩,
    ⟨fun _ _ => 1, fun _ _ => .ok 0, fun _ _ => .ok 0⟩, none⟩

theorem risingAf_low : NearestRow risingAf.alpha (-20 * (Real.pi / 180)) 1 (-20 * (Real.pi / 180)) := by
  have hpi := Real.pi_pos
  refine ⟨rfl, ?_, ?_⟩
  · intro j c _
    rw [sub_self, abs_zero]; exact abs_nonneg _
  · intro j c hj hc
    obtain rfl : j = 0 := by omega
    cases hc
    rw [sub_self, abs_zero, abs_pos]
    intro h; nlinarith

theorem risingAf_high : NearestRow risingAf.alpha (40 * (Real.pi / 180)) 2 (40 * (Real.pi / 180)) := by
  have hpi := Real.pi_pos
  refine ⟨rfl, ?_, ?_⟩
  · intro j c _
    rw [sub_self, abs_zero]; exact abs_nonneg _
  · intro j c hj hc
    rw [sub_self, abs_zero, abs_pos]
    obtain rfl | rfl : j = 0 ∨ j = 1 := by omega
    all_goals cases hc; intro h; nlinarith

/-- The hypotheses of C53 and C54 are met by this airfoil; the last angle of the grid is the best one. -/
example : ∃ p, risingAf.maxEff 1 = .ok p ∧ p.alpha = sweepAngle 200 := by
  have hpi := Real.pi_pos
  have hs : risingAf.alpha.Pairwise (· < ·) := by
    refine List.Pairwise.map _ (R := (· < ·)) (fun x y hxy => by nlinarith) ?_
    norm_num
  obtain ⟨k, p, h1, h2, h3, h4, h5, h6, h7, -⟩ := maxEff_best risingAf 1 hs _ _ _ _ risingAf_low risingAf_high (by norm_num)
    (fun j _ => one_pos)
  refine ⟨p, h1, ?_⟩
  have h8 : sweepAngle 200 ≤ p.eff * 1 := h7 200 le_rfl
  have h9 : p.cl = p.alpha := h4
  have h10 : p.cd = 1 := h5
  rw [h10, h9] at h6
  rw [h6] at h8
  refine le_antisymm ?_ h8
  rw [h3]
  unfold sweepAngle
  have : (k:ℝ) ≤ 200 := by exact_mod_cast h2
  push_cast
  nlinarith

/-- A cylinder tabulated at -180, 0 and 180 degrees: the same row is nearest to -20 and 40 degrees. -/
example (s : Spline ℝ) (x : ℝ) (hx : x = -20 ∨ x = 40) :
    NearestRow (CCAf.mk ([-180, 0, 180].map fun a => a * (Real.pi / 180)) true s s none).alpha (x * (Real.pi / 180)) 1 (0 * (Real.pi / 180)) := by
  have hpi := Real.pi_pos
  have key : ∀ y : ℝ, y = -180 ∨ y = 180 → |0 * (Real.pi / 180) - x * (Real.pi / 180)| < |y * (Real.pi / 180) - x * (Real.pi / 180)| := by
    intro y hy
    rw [← sub_mul, ← sub_mul, abs_mul, abs_mul]
    refine mul_lt_mul_of_pos_right ?_ (by positivity)
    rcases hx with rfl | rfl <;> rcases hy with rfl | rfl <;> norm_num [abs_of_pos, abs_of_neg]
  refine ⟨rfl, ?_, ?_⟩
  · intro j c hc
    match j, hc with
    | 0, hc => cases hc; exact (key _ (.inl rfl)).le
    | 1, hc => cases hc; exact le_rfl
    | 2, hc => cases hc; exact (key _ (.inr rfl)).le
    | n + 3, hc => simp at hc
  · intro j c hj hc
    obtain rfl : j = 0 := by omega
    cases hc
    exact key _ (.inl rfl)

end Verif
