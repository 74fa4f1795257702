import Verif.Props.Bracket
import Verif.Props.Loads
import Verif.Props.Rotor

/-!
# The Betz limit (C101)
-/

namespace Verif

/-! ## The induction factor -/

/-- The power coefficient `4 F k (1-a)³` of an annulus without losses due to drag and wake rotation stays below 16/27, and
its thrust coefficient `4 F k (1-a)²` stays below 2: momentum state, Buhl state and guard. -/
theorem axialInduction_limits (phi k F : ℝ) (hphi : 0 < phi) (hF : 0 < F) (hF1 : F ≤ 1) (hk : 0 < k) :
    4 * F * k * (1 - axialInduction phi k F) ^ 3 ≤ 16 / 27 ∧ 4 * F * k * (1 - axialInduction phi k F) ^ 2 < 2 := by
  rcases le_or_gt k (2 / 3) with h | h
  · rw [axial_momentum hphi h]
    have hk1 : 0 < 1 + k := by linarith
    have e : 1 - k / (1 + k) = 1 / (1 + k) := by field_simp; ring
    rw [e, div_pow, div_pow, one_pow, one_pow, mul_one_div, mul_one_div, div_le_iff₀ (by positivity), div_lt_iff₀ (by positivity)]
    constructor
    · have h1 : 0 ≤ (2 * k - 1) ^ 2 * (k + 4) := by positivity
      have h2 : F * k ≤ 1 * k := mul_le_mul_of_nonneg_right hF1 hk.le
      nlinarith
    · have h2 : F * k ≤ 1 * k := mul_le_mul_of_nonneg_right hF1 hk.le
      nlinarith [sq_nonneg k]
  · have hw := lt_sqrt_buhlG2 hF h
    have hsq : Real.sqrt (buhlG2 F k) ^ 2 = 2 * F * k - (4 / 3 - F) * F := by
      rw [Real.sq_sqrt (le_trans (sq_nonneg F) (buhlG2_pos hF h).le), buhlG2_real]
    have hk2 : 4 * F * k = 2 * (Real.sqrt (buhlG2 F k) ^ 2 + (4 / 3 - F) * F) := by linarith
    rcases lt_or_ge (|buhlG3 F k|) (1 / 1000000) with h3 | h3
    · rw [axial_guard hphi h h3, hk2]
      rw [buhlG3_real] at h3
      have h4 := (abs_lt.mp h3).1
      set w := Real.sqrt (buhlG2 F k)
      have hw0 : 0 < w := lt_trans hF hw
      have h5 : (5 / 3 - F) ^ 2 - 1 / 1000000 ≤ w ^ 2 := by rw [hsq]; nlinarith
      have h6 : 83 / 100 ≤ w := by
        by_contra hc
        push Not at hc
        have : 836 / 1000 ≤ 5 / 3 - F := by linarith
        nlinarith
      have h7 : (4 / 3 - F) * F ≤ 4 / 9 := by nlinarith [sq_nonneg (F - 2 / 3)]
      have e : 1 - (1 - 1 / 2 / w) = 1 / (2 * w) := by field_simp; ring
      rw [e, div_pow, div_pow, one_pow, one_pow, mul_one_div, mul_one_div, div_le_iff₀ (by positivity), div_lt_iff₀ (by positivity)]
      constructor
      · have h8 : 83 / 100 * w ^ 2 ≤ w ^ 3 := by nlinarith [sq_nonneg w]
        nlinarith
      · nlinarith
    · rw [axial_buhl hphi hF h h3, hk2]
      set w := Real.sqrt (buhlG2 F k)
      obtain ⟨D, hD⟩ : ∃ D, D = w + (5 / 3 - F) := ⟨_, rfl⟩
      have hD0 : 5 / 3 < D := by linarith
      have hD' : 0 < D := by linarith
      have hwD : w = D - (5 / 3 - F) := by linarith
      rw [← hD, hwD]
      have e : 1 - (1 - 1 / D) = 1 / D := by ring
      have e2 : 2 * ((D - (5 / 3 - F)) ^ 2 + (4 / 3 - F) * F) = 2 * (D ^ 2 - 2 * D * (5 / 3 - F) + 25 / 9 - 2 * F) := by ring
      have h5 : 2 * (D ^ 2 - 2 * D * (5 / 3 - F) + 25 / 9 - 2 * F) ≤ 2 * (D ^ 2 - 4 / 3 * D + 7 / 9) := by nlinarith
      rw [e, e2, div_pow, div_pow, one_pow, one_pow, mul_one_div, mul_one_div, div_le_iff₀ (by positivity), div_lt_iff₀ (by positivity)]
      constructor
      · refine le_trans h5 ?_
        nlinarith [mul_nonneg (sub_nonneg.mpr hD0.le) (sq_nonneg (D - 9 / 8)), sq_nonneg (D - 5 / 3)]
      · nlinarith

/-- The limit is attained: `F = 1`, `k = 1/2`, `a = 1/3`. -/
theorem axialInduction_betz (phi : ℝ) (hphi : 0 < phi) :
    axialInduction phi (1 / 2) 1 = 1 / 3 ∧ 4 * (1:ℝ) * (1 / 2) * (1 - axialInduction phi (1 / 2) 1) ^ 3 = 16 / 27 := by
  have h : axialInduction phi (1 / 2) (1:ℝ) = 1 / 3 := by
    rw [axial_momentum hphi (by norm_num)]; norm_num
  rw [h]
  norm_num

/-! ## A converged station -/

/-- The triangle of velocities at a root of the residual with positive inflow angle. -/
theorem root_triangle (r chord Rhub Rtip phi cl cd : ℝ) (B : ℕ) (Vx Vy : ℝ) (o : BemOpts) (_hVx : Vx ≠ 0) (hVy : Vy ≠ 0)
    (hphi : 0 < phi) (hphi2 : phi < Real.pi) (ha : (inductionFactors r chord Rhub Rtip phi cl cd B Vx Vy o).a ≠ 1)
    (hz : (inductionFactors r chord Rhub Rtip phi cl cd B Vx Vy o).fzero = 0) :
    let R := inductionFactors r chord Rhub Rtip phi cl cd B Vx Vy o
    let kp := if o.wakeRot then kpSpec o B r chord Rhub Rtip phi cl cd else 0
    Real.cos phi ≠ 0 ∧ (1 + R.ap) * (1 - kp) = 1 ∧ Vx * (1 - R.a) * Real.cos phi = Vy * (1 + R.ap) * Real.sin phi ∧
      Real.sin phi * Vy = Real.cos phi * Vx * (1 - R.a) * (1 - kp) := by
  intro R kp
  obtain ⟨h1, h2, h3⟩ := indOut_eq r chord Rhub Rtip phi cl cd B Vx Vy o
  have hs : 0 < Real.sin phi := Real.sin_pos_of_pos_of_lt_pi hphi hphi2
  change R.a = _ at h1
  change R.ap = _ at h2
  have ha' : 1 - R.a ≠ 0 := fun h => ha (by simp only [R] at h; linarith)
  rw [h3, ← h1] at hz
  simp only [bemResidual, hphi, if_true] at hz
  change Real.sin phi / (1 - R.a) - Real.cos phi / (Vy / Vx) * (1 - kp) = 0 at hz
  have hz' : Real.sin phi * Vy = Real.cos phi * Vx * (1 - R.a) * (1 - kp) := by
    field_simp at hz
    linarith
  have hne : Real.cos phi * Vx * (1 - R.a) * (1 - kp) ≠ 0 := by rw [← hz']; exact mul_ne_zero hs.ne' hVy
  have hc : Real.cos phi ≠ 0 := fun h => hne (by rw [h]; ring)
  have hk : 1 - kp ≠ 0 := fun h => hne (by rw [h]; ring)
  have hap : (1 + R.ap) * (1 - kp) = 1 := by
    rw [h2]
    simp only [kp] at hk ⊢
    by_cases hw : o.wakeRot = true
    · simp only [if_pos hw] at hk ⊢
      field_simp
      ring
    · simp only [if_neg hw]
      norm_num
  refine ⟨hc, hap, ?_, hz'⟩
  have : Vy * (1 + R.ap) * Real.sin phi = (1 + R.ap) * (1 - kp) * (Real.cos phi * Vx * (1 - R.a)) := by linear_combination (1 + R.ap) * hz'
  rw [this, hap]
  ring

/-- Where the triangle closes, the three formulas of the relative speed agree up to sign. -/
theorem relSpeed_sq (phi a ap Vx Vy : ℝ) (hs : Real.sin phi ≠ 0) (hc : Real.cos phi ≠ 0)
    (h : Vx * (1 - a) * Real.cos phi = Vy * (1 + ap) * Real.sin phi) :
    relSpeed phi a ap Vx Vy ^ 2 * Real.sin phi ^ 2 = (Vx * (1 - a)) ^ 2 ∧
    relSpeed phi a ap Vx Vy ^ 2 * Real.cos phi ^ 2 = (Vy * (1 + ap)) ^ 2 := by
  have h1 := Real.sin_sq_add_cos_sq phi
  simp only [relSpeed]
  generalize Vx * (1 - a) = X at h
  generalize Vy * (1 + ap) = Y at h
  have hX : X = Y * Real.sin phi / Real.cos phi := by field_simp; exact h
  split_ifs
  · simp only [num_real]
    constructor
    · rw [hX]; field_simp
    · field_simp
  · simp only [num_real]
    constructor
    · field_simp
    · rw [hX]; field_simp
  · simp only [num_real]
    rw [Real.sq_sqrt (by positivity)]
    constructor
    · rw [hX]; field_simp; linear_combination Y ^ 2 * h1
    · rw [hX]; field_simp; linear_combination Y ^ 2 * h1

/-- The power of an annulus in terms of the thrust coefficient `ck (1-a)²`. -/
private theorem annulus_power {phi a ap Vx Vy rho A c B chord N ck : ℝ} (hs : 0 < Real.sin phi) (hc : 0 < Real.cos phi) (hVx : 0 < Vx)
    (hVy : 0 < Vy) (ha : a < 1) (hap0 : 0 ≤ ap) (htri : Vx * (1 - a) * Real.cos phi = Vy * (1 + ap) * Real.sin phi)
    (hrho : 0 ≤ rho) (hA : 0 ≤ A) (hT : 0 ≤ c) (hpow : c * Real.cos phi ≤ N * Real.sin phi)
    (e5 : ck * Real.sin phi ^ 2 * A = B * chord * N) (hlim : ck * (1 - a) ^ 3 ≤ 16 / 27) (hchord : 0 ≤ chord) (hB : 0 ≤ B) :
    B * (c * (rho * relSpeed phi a ap Vx Vy ^ 2 / 2) * chord) * Vy ≤ 16 / 27 * (rho * Vx ^ 3 / 2 * A) := by
  obtain ⟨w1, w2⟩ := relSpeed_sq phi a ap Vx Vy hs.ne' hc.ne' htri
  generalize relSpeed phi a ap Vx Vy = W at w1 w2
  obtain ⟨U, hU, hU2⟩ : ∃ U, 0 ≤ U ∧ U ^ 2 = W ^ 2 := ⟨|W|, abs_nonneg _, sq_abs _⟩
  have u1 : U * Real.sin phi = Vx * (1 - a) := by
    refine (sq_eq_sq₀ (by positivity) (mul_nonneg hVx.le (by linarith))).mp ?_
    rw [mul_pow, hU2]; exact w1
  have u2 : U * Real.cos phi = Vy * (1 + ap) := by
    refine (sq_eq_sq₀ (by positivity) (mul_nonneg hVy.le (by linarith))).mp ?_
    rw [mul_pow, hU2]; exact w2
  have hVyU : Vy ≤ U * Real.cos phi := by rw [u2]; linarith [mul_nonneg hVy.le hap0, mul_add Vy 1 ap]
  rw [← hU2]
  calc B * (c * (rho * U ^ 2 / 2) * chord) * Vy
      ≤ B * (c * (rho * U ^ 2 / 2) * chord) * (U * Real.cos phi) :=
        mul_le_mul_of_nonneg_left hVyU (by positivity)
    _ = (c * Real.cos phi) * (B * (rho * U ^ 3 / 2) * chord) := by ring
    _ ≤ (N * Real.sin phi) * (B * (rho * U ^ 3 / 2) * chord) :=
        mul_le_mul_of_nonneg_right hpow (by positivity)
    _ = (ck * (1 - a) ^ 3) * (rho * Vx ^ 3 / 2 * A) := by
        have e4 : Vx ^ 3 * (1 - a) ^ 3 = (U * Real.sin phi) ^ 3 := by rw [u1]; ring
        linear_combination (-(rho / 2) * A * ck) * e4 + (-(rho / 2) * U ^ 3 * Real.sin phi) * e5
    _ ≤ _ := mul_le_mul_of_nonneg_right hlim (by positivity)

private theorem swirl_nonneg {ap kp : ℝ} (hkp : 0 ≤ kp) (hkp1 : 0 < 1 - kp) (hap : (1 + ap) * (1 - kp) = 1) : 0 ≤ ap := by
  have h : 1 + ap = 1 / (1 - kp) := by field_simp; exact hap
  have : 1 ≤ 1 / (1 - kp) := by rw [le_div_iff₀ hkp1]; linarith
  linarith

private theorem drag_takes_power (o : BemOpts) (cl cd phi : ℝ) (hcd : 0 ≤ cd) :
    (cl * Real.sin phi - cd * Real.cos phi) * Real.cos phi ≤ cnSpec o cl cd phi * Real.sin phi := by
  unfold cnSpec
  have p1 := mul_nonneg hcd (sq_nonneg (Real.cos phi))
  have p2 := mul_nonneg hcd (sq_nonneg (Real.sin phi))
  split_ifs
  · linear_combination p1 + p2
  · linear_combination p1

/-- **C101** A station at a root of the residual, with nonnegative drag and an inflow angle of at most 90° (beyond that, with drag in
the residual or without wake rotation, and an axial induction factor below one): the power the `B` blades extract from the annulus of radius `r` is at most
16/27 of the power of the wind through it. -/
theorem station_betz (r chord Rhub Rtip phi cl cd : ℝ) (B : ℕ) (Vx Vy rho : ℝ) (o : BemOpts) (hB : 0 < B) (hRhub : 0 < Rhub)
    (h1 : Rhub < r) (h2 : r < Rtip) (hchord : 0 < chord) (hrho : 0 ≤ rho) (hVx : 0 < Vx) (hVy : 0 < Vy) (hcd : 0 ≤ cd)
    (hlo : -(Real.pi / 2) < phi) (hhi : phi < Real.pi) (h0 : phi ≠ 0) :
    let R := inductionFactors r chord Rhub Rtip phi cl cd B Vx Vy o
    let W := relSpeed phi R.a R.ap Vx Vy
    R.fzero = 0 → (phi ≤ Real.pi / 2 ∨ ((o.useCd = true ∨ o.wakeRot = false) ∧ R.a < 1)) →
    B * ((cl * Real.sin phi - cd * Real.cos phi) * (rho * W ^ 2 / 2) * chord) * Vy
      ≤ 16 / 27 * (rho * Vx ^ 3 / 2 * (2 * Real.pi * r)) := by
  intro R W hz hside
  have hpi := Real.pi_pos
  have hr : 0 < r := lt_trans hRhub h1
  have hBr : (0:ℝ) < B := by exact_mod_cast hB
  have hrhs : 0 ≤ 16 / 27 * (rho * Vx ^ 3 / 2 * (2 * Real.pi * r)) := by positivity
  rcases le_or_gt (cl * Real.sin phi - cd * Real.cos phi) 0 with hT | hT
  · refine le_trans ?_ hrhs
    have : 0 ≤ B * (rho * W ^ 2 / 2 * chord) * Vy := by positivity
    nlinarith
  obtain ⟨e1, e2, e3⟩ := indOut_eq r chord Rhub Rtip phi cl cd B Vx Vy o
  change R.a = _ at e1
  change R.ap = _ at e2
  rcases lt_or_gt_of_ne h0 with hneg | hphi
  · -- no driving force at negative inflow angles
    exfalso
    have hs : Real.sin phi < 0 := Real.sin_neg_of_neg_of_neg_pi_lt hneg (by linarith)
    have hc : 0 < Real.cos phi := Real.cos_pos_of_mem_Ioo ⟨hlo, by linarith⟩
    have hcl : cl < 0 := by
      by_contra h
      push Not at h
      nlinarith [mul_nonneg hcd hc.le]
    have hct : 0 < ctSpec o cl cd phi := by
      unfold ctSpec
      split_ifs
      · exact hT
      · nlinarith
    have hcn : cnSpec o cl cd phi < 0 := by
      unfold cnSpec
      split_ifs <;> nlinarith
    have hF0 : 0 ≤ lossSpec o B r Rhub Rtip phi := by
      have hp : ∀ d x, 0 ≤ prandtl B d x phi := fun d x => mul_nonneg (by positivity) (Real.arccos_nonneg _)
      unfold lossSpec
      apply mul_nonneg <;> split_ifs <;> first | exact hp _ _ | norm_num
    have hk : kSpec o B r chord Rhub Rtip phi cl cd ≤ 0 := by
      unfold kSpec
      refine div_nonpos_of_nonpos_of_nonneg (mul_nonpos_of_nonneg_of_nonpos (by positivity) hcn.le) (by positivity)
    have hkp : kpSpec o B r chord Rhub Rtip phi cl cd ≤ 0 := by
      unfold kpSpec
      refine div_nonpos_of_nonneg_of_nonpos (mul_nonneg (by positivity) hct.le) ?_
      have : lossSpec o B r Rhub Rtip phi * (Real.sin phi * Real.cos phi) ≤ 0 :=
        mul_nonpos_of_nonneg_of_nonpos hF0 (mul_nonpos_of_nonpos_of_nonneg hs.le hc.le)
      nlinarith
    rw [e3] at hz
    simp only [bemResidual, not_lt.mpr hneg.le, if_false] at hz
    have hl : 0 < Real.cos phi / (Vy / Vx) := by positivity
    have hkp' : (if o.wakeRot then kpSpec o B r chord Rhub Rtip phi cl cd else 0) ≤ 0 := by
      split_ifs
      · exact hkp
      · exact le_rfl
    nlinarith
  obtain ⟨hF, hF1⟩ := lossSpec_range o B hB r Rhub Rtip phi hRhub h1 h2 hphi hhi
  have hs : 0 < Real.sin phi := Real.sin_pos_of_pos_of_lt_pi hphi hhi
  have hσ : 0 < B * chord / (2 * Real.pi * r) := by positivity
  have ha1 : R.a ≠ 1 := by
    intro ha
    rcases le_or_gt (kSpec o B r chord Rhub Rtip phi cl cd) (2 / 3) with h | h
    · rw [e1, axial_momentum hphi h] at ha
      have : 1 + kSpec o B r chord Rhub Rtip phi cl cd ≠ 0 := by
        intro h0
        rw [h0] at ha
        norm_num at ha
      field_simp at ha
      linarith
    · exact absurd ha (ne_of_lt (e1 ▸ axialInduction_lt_one phi _ _ hphi hF (by linarith)))
  obtain ⟨hc0, hap, htri, hres⟩ := root_triangle r chord Rhub Rtip phi cl cd B Vx Vy o hVx.ne' hVy.ne' hphi hhi ha1 hz
  change (1 + R.ap) * _ = 1 at hap
  change Vx * (1 - R.a) * _ = Vy * (1 + R.ap) * _ at htri
  change _ = Real.cos phi * Vx * (1 - R.a) * _ at hres
  set kp := (if o.wakeRot then kpSpec o B r chord Rhub Rtip phi cl cd else 0) with hkpdef
  rcases lt_or_gt_of_ne hc0 with hc | hc
  · -- no driving force beyond 90°
    exfalso
    rcases hside with h | ⟨hu, ha⟩
    · exact absurd (Real.cos_nonneg_of_mem_Icc ⟨by linarith, h⟩) (not_le.mpr hc)
    have hkp : kp ≤ 0 := by
      rw [hkpdef]
      split_ifs with hw
      · have hct : 0 < ctSpec o cl cd phi := by
          unfold ctSpec
          rw [hu.resolve_right (by rw [hw]; simp), if_pos rfl]
          exact hT
        unfold kpSpec
        refine div_nonpos_of_nonneg_of_nonpos (mul_nonneg hσ.le hct.le) ?_
        exact mul_nonpos_of_nonneg_of_nonpos (by positivity) hc.le
      · exact le_rfl
    have h3 : 0 < Real.sin phi * Vy := by positivity
    have h4 : Real.cos phi * Vx * (1 - R.a) * (1 - kp) < 0 := by
      have : Real.cos phi * (Vx * (1 - R.a) * (1 - kp)) < 0 :=
        mul_neg_of_neg_of_pos hc (mul_pos (mul_pos hVx (by linarith)) (by linarith))
      linarith
    linarith
  · have hcl : 0 < cl := by
      by_contra h
      push Not at h
      linarith [mul_nonneg hcd hc.le, mul_nonpos_of_nonpos_of_nonneg h hs.le]
    have hct : 0 < ctSpec o cl cd phi := by
      unfold ctSpec
      split_ifs
      · exact hT
      · linarith [mul_pos hcl hs]
    have hcn : 0 < cnSpec o cl cd phi := by
      unfold cnSpec
      have p1 := mul_pos hcl hc
      have p2 := mul_nonneg hcd hs.le
      split_ifs <;> linarith
    have hk : 0 < kSpec o B r chord Rhub Rtip phi cl cd := by
      unfold kSpec
      positivity
    have hkp : 0 ≤ kp := by
      rw [hkpdef]
      split_ifs
      · unfold kpSpec
        positivity
      · exact le_rfl
    have ha : R.a < 1 := e1 ▸ axialInduction_lt_one phi _ _ hphi hF (by linarith)
    have hkp1 : 0 < 1 - kp := by
      by_contra h
      push Not at h
      have h3 : 0 < Real.sin phi * Vy := by positivity
      have h4 : 0 < Real.cos phi * Vx * (1 - R.a) := mul_pos (mul_pos hc hVx) (by linarith)
      nlinarith
    have hap0 : 0 ≤ R.ap := swirl_nonneg hkp hkp1 hap
    have hpow := drag_takes_power o cl cd phi hcd
    have hlim := (axialInduction_limits phi _ _ hphi hF hF1 hk).1
    rw [← e1] at hlim
    have e5 : 4 * lossSpec o B r Rhub Rtip phi * kSpec o B r chord Rhub Rtip phi cl cd * Real.sin phi ^ 2 * (2 * Real.pi * r)
        = B * chord * cnSpec o cl cd phi := by
      unfold kSpec
      field_simp
    exact annulus_power hs hc hVx hVy ha hap0 htri hrho (by positivity) hT.le hpow e5 hlim hchord.le hBr.le

/-- **C101** (fails) With wake rotation and without drag in the residual there is no limit beyond 90°, even with an axial induction
factor below one: at this root (`a = 8/11`, `a' = -14/11`) the flow turns faster than the blades and drives them by their drag, which
the residual does not contain. -/
theorem station_betz_no_drag_false (M : ℝ) : ∃ cl cd : ℝ, 0 ≤ cd ∧
    let R := inductionFactors 2 (4 * Real.pi) 1 3 (3 * Real.pi / 4) cl cd 1 1 1 ⟨false, false, false, true⟩
    let W := relSpeed (3 * Real.pi / 4) R.a R.ap 1 1
    R.fzero = 0 ∧ R.a = 8 / 11 ∧
      M < (cl * Real.sin (3 * Real.pi / 4) - cd * Real.cos (3 * Real.pi / 4)) * (W ^ 2 / 2) * (4 * Real.pi) := by
  have hpi := Real.pi_pos
  have hq : Real.sqrt 2 ^ 2 = 2 := Real.sq_sqrt (by norm_num)
  have h2 : 0 < Real.sqrt 2 := by positivity
  have e34 : 3 * Real.pi / 4 = Real.pi - Real.pi / 4 := by ring
  have hs : Real.sin (3 * Real.pi / 4) = Real.sqrt 2 / 2 := by rw [e34, Real.sin_pi_sub, Real.sin_pi_div_four]
  have hc : Real.cos (3 * Real.pi / 4) = -(Real.sqrt 2 / 2) := by rw [e34, Real.cos_pi_sub, Real.cos_pi_div_four]
  have hp : 0 < 3 * Real.pi / 4 := by positivity
  refine ⟨-(28 * Real.sqrt 2 / 3), 28 * Real.sqrt 2 / 3 + (|M| + 1) * (121 / (18 * Real.pi * Real.sqrt 2)), by positivity, ?_⟩
  generalize hcd : 28 * Real.sqrt 2 / 3 + (|M| + 1) * (121 / (18 * Real.pi * Real.sqrt 2)) = cd
  obtain ⟨e1, e2, e3⟩ := indOut_eq 2 (4 * Real.pi) 1 3 (3 * Real.pi / 4) (-(28 * Real.sqrt 2 / 3)) cd 1 1 1 ⟨false, false, false, true⟩
  have hk : kSpec ⟨false, false, false, true⟩ 1 2 (4 * Real.pi) 1 3 (3 * Real.pi / 4) (-(28 * Real.sqrt 2 / 3)) cd = 14 / 3 := by
    simp only [kSpec, cnSpec, lossSpec, hs, hc]
    field_simp
    norm_num
    nlinarith
  have hkp : kpSpec ⟨false, false, false, true⟩ 1 2 (4 * Real.pi) 1 3 (3 * Real.pi / 4) (-(28 * Real.sqrt 2 / 3)) cd = 14 / 3 := by
    simp only [kpSpec, ctSpec, lossSpec, hs, hc]
    field_simp
    norm_num
    try nlinarith
  have hF : lossSpec ⟨false, false, false, true⟩ 1 2 1 3 (3 * Real.pi / 4) = 1 := by simp [lossSpec]
  have ha : axialInduction (3 * Real.pi / 4) (14 / 3 : ℝ) 1 = 8 / 11 := by
    have hg : Real.sqrt (2 * 1 * (14 / 3) - (4 / 3 - 1) * 1) = 3 := by
      rw [show (2 * 1 * (14 / 3) - (4 / 3 - 1) * 1 : ℝ) = 3 ^ 2 by norm_num]
      exact Real.sqrt_sq (by norm_num)
    rw [axial_buhl hp one_pos (by norm_num) (by rw [buhlG3_real]; norm_num [abs_of_pos]), buhlG2_real, hg]
    norm_num
  simp only [hk, hkp, hF, if_true, ha] at e1 e2 e3
  intro R W
  have ea : R.a = 8 / 11 := e1
  have eap : R.ap = -(14 / 11) := by
    have : R.ap = 14 / 3 / (1 - 14 / 3) := e2
    rw [this]; norm_num
  refine ⟨?_, ea, ?_⟩
  · refine e3.trans ?_
    rw [hs, hc]
    simp only [bemResidual, if_pos hp, num_real]
    ring
  · have hw := (relSpeed_sq (3 * Real.pi / 4) R.a R.ap 1 1 (by rw [hs]; positivity)
      (by rw [hc]; exact neg_ne_zero.mpr (by positivity)) (by rw [hs, hc, ea, eap]; ring)).1
    have hW : W ^ 2 = 18 / 121 := by
      have : W ^ 2 * Real.sin (3 * Real.pi / 4) ^ 2 = (1 * (1 - R.a)) ^ 2 := hw
      rw [hs, ea, div_pow, hq] at this
      linarith
    rw [hW, hs, hc, ← hcd]
    have e : (-(28 * Real.sqrt 2 / 3) * (Real.sqrt 2 / 2) -
        (28 * Real.sqrt 2 / 3 + (|M| + 1) * (121 / (18 * Real.pi * Real.sqrt 2))) * -(Real.sqrt 2 / 2)) * (18 / 121 / 2) *
          (4 * Real.pi) = |M| + 1 := by
      field_simp
      ring
    rw [e]
    linarith [le_abs_self M]

/-- **C101** A station at a root of the residual with positive inflow angle and drag in the residual: the thrust on the annulus is
at most twice the dynamic pressure times its area. -/
theorem station_thrust (r chord Rhub Rtip phi cl cd : ℝ) (B : ℕ) (Vx Vy rho : ℝ) (o : BemOpts) (hB : 0 < B) (hRhub : 0 < Rhub)
    (h1 : Rhub < r) (h2 : r < Rtip) (hchord : 0 < chord) (hrho : 0 ≤ rho) (hVx : 0 < Vx) (hVy : 0 < Vy) (ho : o.useCd = true)
    (hlo : 0 < phi) (hhi : phi < Real.pi) :
    let R := inductionFactors r chord Rhub Rtip phi cl cd B Vx Vy o
    let W := relSpeed phi R.a R.ap Vx Vy
    R.fzero = 0 →
    B * ((cl * Real.cos phi + cd * Real.sin phi) * (rho * W ^ 2 / 2) * chord) ≤ 2 * (rho * Vx ^ 2 / 2 * (2 * Real.pi * r)) := by
  intro R W hz
  have hpi := Real.pi_pos
  have hr : 0 < r := lt_trans hRhub h1
  have hBr : (0:ℝ) < B := by exact_mod_cast hB
  have hcn : cl * Real.cos phi + cd * Real.sin phi = cnSpec o cl cd phi := by simp [cnSpec, ho]
  have hrhs : 0 ≤ 2 * (rho * Vx ^ 2 / 2 * (2 * Real.pi * r)) := by positivity
  rw [hcn]
  rcases le_or_gt (cnSpec o cl cd phi) 0 with hN | hN
  · refine le_trans ?_ hrhs
    have h3 : 0 ≤ B * (rho * W ^ 2 / 2 * chord) := by positivity
    have h4 := mul_nonpos_of_nonpos_of_nonneg hN h3
    linarith
  obtain ⟨e1, e2, e3⟩ := indOut_eq r chord Rhub Rtip phi cl cd B Vx Vy o
  change R.a = _ at e1
  obtain ⟨hF, hF1⟩ := lossSpec_range o B hB r Rhub Rtip phi hRhub h1 h2 hlo hhi
  have hs : 0 < Real.sin phi := Real.sin_pos_of_pos_of_lt_pi hlo hhi
  have hk : 0 < kSpec o B r chord Rhub Rtip phi cl cd := by
    unfold kSpec
    positivity
  have ha : R.a < 1 := e1 ▸ axialInduction_lt_one phi _ _ hlo hF (by linarith)
  obtain ⟨hc, -, htri, -⟩ := root_triangle r chord Rhub Rtip phi cl cd B Vx Vy o hVx.ne' hVy.ne' hlo hhi ha.ne hz
  obtain ⟨w1, -⟩ := relSpeed_sq phi R.a R.ap Vx Vy hs.ne' hc htri
  have hlim := (axialInduction_limits phi _ _ hlo hF hF1 hk).2
  rw [← e1] at hlim
  have e5 : 4 * lossSpec o B r Rhub Rtip phi * kSpec o B r chord Rhub Rtip phi cl cd * Real.sin phi ^ 2 * (2 * Real.pi * r)
      = B * chord * cnSpec o cl cd phi := by
    unfold kSpec
    field_simp
  change W ^ 2 * Real.sin phi ^ 2 = _ at w1
  have e6 : B * (cnSpec o cl cd phi * (rho * W ^ 2 / 2) * chord)
      = 4 * lossSpec o B r Rhub Rtip phi * kSpec o B r chord Rhub Rtip phi cl cd * (1 - R.a) ^ 2 * (rho * Vx ^ 2 / 2 * (2 * Real.pi * r)) := by
    linear_combination (-(rho * W ^ 2 / 2)) * e5 + (4 * lossSpec o B r Rhub Rtip phi * kSpec o B r chord Rhub Rtip phi cl cd * (rho / 2) *
      (2 * Real.pi * r)) * w1
  rw [e6]
  exact mul_le_mul_of_nonneg_right hlim.le (by positivity)

/-! ## The stations of a call -/

/-- Induction factors and residual of `__runBEM` are those of its last coefficients. -/
theorem runBEM_ind (R : Rotor ℝ) (pitch phi : ℝ) (x : Sec ℝ) :
    let o := runBEM R pitch phi x
    let I := inductionFactors x.r x.chord R.Rhub R.Rtip phi o.cl o.cd R.B x.Vx x.Vy R.opts
    o.fzero = I.fzero ∧ o.a = I.a ∧ o.ap = I.ap := by
  have h : ∀ (k : ℕ) (o : BemOut ℝ), (∃ c : ℝ × ℝ, o = (fun I : IndOut ℝ => (⟨I.fzero, I.a, I.ap, c.1, c.2⟩ : BemOut ℝ))
        (inductionFactors x.r x.chord R.Rhub R.Rtip phi c.1 c.2 R.B x.Vx x.Vy R.opts)) →
      ∃ c : ℝ × ℝ, bemPasses R pitch phi x k o = (fun I : IndOut ℝ => (⟨I.fzero, I.a, I.ap, c.1, c.2⟩ : BemOut ℝ))
        (inductionFactors x.r x.chord R.Rhub R.Rtip phi c.1 c.2 R.B x.Vx x.Vy R.opts) := by
    intro k
    induction k with
    | zero => intro o ho; exact ho
    | succ k ih => intro o _; exact ih _ ⟨_, rfl⟩
  obtain ⟨c, hc⟩ := h (R.iterRe - 1) (bemPass R pitch phi x 0 0) ⟨_, rfl⟩
  intro o I
  have ho : o = _ := hc
  simp only [I, ho]
  exact ⟨trivial, trivial, trivial⟩

/-- The root finder returns roots inside the interval it is given. -/
def ExactRoots (bq : RootFinder ℝ) : Prop := ∀ f a b p, bq f a b = .ok p → f p = 0 ∧ a ≤ p ∧ p ≤ b

/-- The station has been solved: the residual vanishes at its inflow angle, which is at most 90°, or beyond it with drag in the
residual or without wake rotation, and an axial induction factor below one. -/
structure Converged (R : Rotor ℝ) (Uinf Omega pitch az : ℝ) (i : ℕ) (s : Station ℝ) : Prop where
  root : stationResidual R Uinf Omega pitch az i s.phi = 0
  ne : s.phi ≠ 0
  lo : -(Real.pi / 2) < s.phi
  hi : s.phi < Real.pi
  side : s.phi ≤ Real.pi / 2 ∨ ((R.opts.useCd = true ∨ R.opts.wakeRot = false) ∧ s.loads.a < 1)

/-- Stations solved by an exact root finder without the warning. -/
theorem converged_of_exact {bq : RootFinder ℝ} (hbq : ExactRoots bq) {R R' : Rotor ℝ} {Uinf Omega pitch az : ℝ} {L : LoadsOut ℝ}
    (h : distributedAeroLoads bq R Uinf Omega pitch az = (R', .ok L)) (hO : Omega ≠ 0) {i : ℕ} {s : Station ℝ}
    (hs : L.stations[i]? = some s) (hw : s.warned = false) (hside : s.phi ≤ Real.pi / 2 ∨ ((R.opts.useCd = true ∨ R.opts.wakeRot = false) ∧ s.loads.a < 1)) :
    Converged R Uinf Omega pitch az i s := by
  obtain ⟨d, h1, -⟩ := solveStation_real (loads_station h hs).2
  have hpi := Real.pi_gt_three
  have hf : stationErrf R (deg2rad pitch) (rotorWind R Uinf Omega (deg2rad az)) i = stationResidual R Uinf Omega pitch az i := rfl
  unfold stationPhi at h1
  rw [if_neg (by simpa using hO), hf] at h1
  split_ifs at h1
  unfold solvePhi at h1
  simp only at h1
  split at h1
  · rename_i p hp
    simp only [Except.ok.injEq, Prod.mk.injEq] at h1
    rw [h1.1] at hp
    obtain ⟨z, l, u⟩ := hbq _ _ _ _ hp
    have hb := bracket_searchInterval (stationResidual R Uinf Omega pitch az i)
    simp only [SearchInterval, num_real] at hb
    push_cast at hb
    rcases hb with hb | hb | hb <;> rw [hb] at l u <;> simp only at l u <;>
      exact ⟨z, fun h => by rw [h] at l u; linarith, by linarith, by linarith, hside⟩
  · simp only [Except.ok.injEq, Prod.mk.injEq] at h1
    rw [hw] at h1
    exact absurd h1.2 (by simp)
  · cases h1

/-- **C101** Power and thrust of the annulus of a converged station. -/
theorem loads_betz (bq : RootFinder ℝ) (R R' : Rotor ℝ) (Uinf Omega pitch az : ℝ) (L : LoadsOut ℝ)
    (h : distributedAeroLoads bq R Uinf Omega pitch az = (R', .ok L)) (i : ℕ) (s : Station ℝ) (hs : L.stations[i]? = some s)
    (hinv : R.inv = none) (hO : Omega ≠ 0) (hB : 0 < R.B) (hRhub : 0 < R.Rhub) (h1 : R.Rhub < R.r i) (h2 : R.r i < R.Rtip)
    (hchord : 0 < R.chord i) (hrho : 0 ≤ R.rho) (hcd : ∀ alpha Re, 0 ≤ ((R.af i).evaluate alpha Re).2) (Vx Vy : ℝ)
    (hV : rotorWind R Uinf Omega (az * (Real.pi / 180)) i = (Vx, Vy)) (hVx : 0 < Vx) (hVy : 0 < Vy)
    (hs' : Converged R Uinf Omega pitch az i s) :
    R.B * s.loads.Tp * Vy ≤ 16 / 27 * (R.rho * Vx ^ 3 / 2 * (2 * Real.pi * R.r i)) ∧
    (R.opts.useCd = true → 0 < s.phi → R.B * s.loads.Np ≤ 2 * (R.rho * Vx ^ 2 / 2 * (2 * Real.pi * R.r i))) := by
  obtain ⟨d, -, hth, h3, -, -⟩ := solveStation_real (loads_station h hs).2
  have hth' : s.theta = R.theta i := by rw [hth]; simp [stationTheta, hinv]
  have hO' : (Omega == 0) = false := by simpa using hO
  have hz := hs'.root
  simp only [stationResidual, hinv, real_deg2rad, hV] at hz
  rw [real_deg2rad] at h3
  simp only [stationSec, real_deg2rad, hV, hth'] at h3
  set x : Sec ℝ := ⟨R.r i, R.chord i, R.theta i, R.af i, Vx, Vy⟩ with hx
  rcases secLoads_ok h3 with ⟨-, -, hl, -⟩ | ⟨h0, -⟩
  · obtain ⟨f1, f2, f3⟩ := runBEM_ind R (pitch * (Real.pi / 180)) s.phi x
    obtain ⟨Re, hRe⟩ := runBEM_coef R (pitch * (Real.pi / 180)) s.phi x
    have hcd' : 0 ≤ (runBEM R (pitch * (Real.pi / 180)) s.phi x).cd := by
      rw [show (runBEM R (pitch * (Real.pi / 180)) s.phi x).cd = _ from congrArg Prod.snd hRe]
      exact hcd _ _
    have hz' : (runBEM R (pitch * (Real.pi / 180)) s.phi x).fzero = 0 := hz
    have hside := hs'.side
    rw [hO'] at hl
    rw [hl] at hside ⊢
    simp only [secValues, Bool.not_false, if_true, relativeWind] at hside ⊢
    rw [f2] at hside
    rw [f2, f3]
    rw [f1] at hz'
    constructor
    · refine le_trans (le_of_eq ?_) (station_betz (R.r i) (R.chord i) R.Rhub R.Rtip s.phi _ _ R.B Vx Vy R.rho R.opts hB hRhub h1 h2
        hchord hrho hVx hVy hcd' hs'.lo hs'.hi hs'.ne hz' hside)
      simp only [num_real, hx]
      push_cast
      ring
    · intro hu hp
      refine le_trans (le_of_eq ?_) (station_thrust (R.r i) (R.chord i) R.Rhub R.Rtip s.phi _ _ R.B Vx Vy R.rho R.opts hB hRhub h1 h2
        hchord hrho hVx hVy hu hp hs'.hi hz')
      simp only [num_real, hx]
      push_cast
      ring
  · exact absurd h0 (by simp only [hx, not_or]; exact ⟨hVx.ne', hVy.ne'⟩)

/-! ## The rotor -/

/-- A straight blade with stations strictly between hub and tip, on a rotor without tilt and yaw in wind without shear. -/
structure StraightRotor (R : Rotor ℝ) : Prop where
  n : 2 ≤ R.n
  hub : 0 < R.Rhub
  first : R.Rhub < R.r 0
  inc : ∀ i, i + 1 < R.n → R.r i < R.r (i + 1)
  last : R.r (R.n - 1) < R.Rtip
  curve : ∀ i, R.precurve i = 0
  curveTip : R.precurveTip = 0
  sweep : ∀ i, R.presweep i = 0
  sweepTip : R.presweepTip = 0
  cone : |R.precone| < Real.pi / 2
  radius : R.rotorR = R.Rtip * Real.cos R.precone
  axial : Axisymmetric R

theorem StraightRotor.range {R : Rotor ℝ} (G : StraightRotor R) {i : ℕ} (hi : i < R.n) : R.Rhub < R.r i ∧ R.r i < R.Rtip := by
  have h1 : ∀ j, j < R.n → R.Rhub < R.r j := by
    intro j
    induction j with
    | zero => intro _; exact G.first
    | succ j ih => intro hj; exact lt_trans (ih (by omega)) (G.inc j hj)
  have h2 : ∀ k, k + 1 ≤ R.n → R.r (R.n - 1 - k) < R.Rtip := by
    intro k
    induction k with
    | zero => intro _; exact G.last
    | succ k ih =>
      intro hk
      have := G.inc (R.n - 1 - (k + 1)) (by omega)
      rw [show R.n - 1 - (k + 1) + 1 = R.n - 1 - k by omega] at this
      exact lt_trans this (ih (by omega))
  have := h2 (R.n - 1 - i) (by omega)
  rw [show R.n - 1 - (R.n - 1 - i) = i by omega] at this
  exact ⟨h1 i hi, this⟩

theorem StraightRotor.cos_pos {R : Rotor ℝ} (G : StraightRotor R) : 0 < Real.cos R.precone :=
  Real.cos_pos_of_mem_Ioo (abs_lt.mp G.cone)

/-- The wind of such a rotor. -/
theorem StraightRotor.wind {R : Rotor ℝ} (G : StraightRotor R) (U Omega az : ℝ) {i : ℕ} (hi : i < R.n) :
    rotorWind R U Omega az i = (U * Real.cos R.precone, Omega * Real.pi / 30 * (R.r i * Real.cos R.precone)) := by
  have hpi := Real.pi_pos
  have hc := abs_lt.mp G.cone
  have hcone : (defineCurvature R.n R.r R.precurve R.presweep R.precone).cone i = R.precone :=
    cone_of_straight_blade R.n G.n _ _ _ _ ⟨by linarith, by linarith⟩ G.inc (fun j _ => by rw [G.curve, G.curve]) i hi
  unfold rotorWind windComponents
  simp only [hcone, num_real, G.axial.tilt, G.axial.yaw, G.axial.shear]
  simp [defineCurvature, xAz, zAz, yAz, shearedWind, num_real, G.curve, G.sweep]

/-- The blade integral of a load bounded by a multiple of the radius. -/
theorem StraightRotor.integral_le {R : Rotor ℝ} (G : StraightRotor R) (f : ℕ → ℝ) (C : ℝ) (hC : 0 ≤ C)
    (hf : ∀ i < R.n, f i ≤ C * R.r i) :
    trapz (R.n + 1) (padded R.n 0 f 0) (defineCurvature (R.n + 2) (padded R.n R.Rhub R.r R.Rtip) (padded R.n 0 R.precurve R.precurveTip)
      (padded R.n 0 R.presweep R.presweepTip) R.precone).s ≤ C * ((R.Rtip ^ 2 - R.Rhub ^ 2) / 2) := by
  set q := padded R.n R.Rhub R.r R.Rtip with hq
  have hRt : 0 < R.Rtip := lt_trans G.hub (lt_trans G.first (G.range (i := 0) (by have := G.n; omega)).2)
  have hq0 : ∀ i, i < R.n + 1 → q i < q (i + 1) := by
    intro i hi
    simp only [hq, padded]
    by_cases h0 : i = 0
    · subst h0
      have h3 : ¬ R.n = 0 := by have := G.n; omega
      simp [h3, G.first]
    · by_cases h1 : i = R.n
      · subst h1
        have h3 : ¬ R.n = R.n + 1 := by omega
        simp [h0, G.last]
      · have h3 : ¬ i = R.n + 1 := by omega
        have := G.inc (i - 1) (by omega)
        rw [show i - 1 + 1 = i by omega] at this
        simp [h0, h1, h3, this]
  have hpc : padded R.n 0 R.precurve R.precurveTip = fun _ => 0 := by
    funext i; simp only [padded, G.curve, G.curveTip]; split_ifs <;> rfl
  have hps : padded R.n 0 R.presweep R.presweepTip = fun _ => 0 := by
    funext i; simp only [padded, G.sweep, G.sweepTip]; split_ifs <;> rfl
  have hfp : ∀ i, i < R.n + 2 → padded R.n 0 f 0 i ≤ C * q i := by
    intro i hi
    simp only [hq, padded]
    split_ifs with h0 h1
    · exact mul_nonneg hC G.hub.le
    · exact mul_nonneg hC hRt.le
    · exact hf _ (by omega)
  have hstep : ∀ i ∈ Finset.range (R.n + 1), 1 / ((2:ℕ):ℝ) * (padded R.n 0 f 0 i + padded R.n 0 f 0 (i + 1)) *
      (pathLength q (fun _ => (0:ℝ)) (fun _ => 0) (i + 1) - pathLength q (fun _ => (0:ℝ)) (fun _ => 0) i)
      ≤ C / 2 * (q (i + 1)) ^ 2 - C / 2 * (q i) ^ 2 := by
    intro i hi
    rw [Finset.mem_range] at hi
    have h1 := hq0 i hi
    have h2 := hfp i (by omega)
    have h3 := hfp (i + 1) (by omega)
    have e : pathLength q (fun _ => (0:ℝ)) (fun _ => 0) (i + 1) - pathLength q (fun _ => (0:ℝ)) (fun _ => 0) i = q (i + 1) - q i := by
      simp only [pathLength, segLength, num_real]
      rw [show ((0:ℝ) - 0) ^ 2 + (0 - 0) ^ 2 + (q (i + 1) - q i) ^ 2 = (q (i + 1) - q i) ^ 2 by ring, Real.sqrt_sq (by linarith)]
      ring
    rw [e]
    have := mul_le_mul_of_nonneg_right (add_le_add h2 h3) (sub_nonneg.mpr h1.le)
    push_cast
    linarith
  have hend : q 0 = R.Rhub ∧ q (R.n + 1) = R.Rtip := by simp [hq, padded]
  have := Finset.sum_le_sum hstep
  rw [Finset.sum_range_sub (fun i => C / 2 * q i ^ 2), hend.1, hend.2] at this
  rw [hpc, hps]
  simp only [trapz, num_real, defineCurvature]
  refine le_trans this (le_of_eq (by ring))

/-- Averages of bounded quantities. -/
private theorem mean_le {ns : ℕ} {f : ℕ → ℝ} {b : ℝ} (hb : 0 ≤ b) (h : ∀ k < ns, f k ≤ b) : (∑ k ∈ Finset.range ns, f k) / ns ≤ b := by
  rcases Nat.eq_zero_or_pos ns with h0 | h0
  · subst h0; simpa using hb
  · rw [div_le_iff₀ (by exact_mod_cast h0)]
    calc ∑ k ∈ Finset.range ns, f k ≤ ∑ _k ∈ Finset.range ns, b := Finset.sum_le_sum fun k hk => h k (Finset.mem_range.mp hk)
      _ = b * ns := by simp [mul_comm]

/-- **C101** A rotor in axial wind whose stations have all been solved, with airfoils of nonnegative drag: the power coefficient that
`evaluate` reports is at most 16/27 times the cosine of the precone angle and the fraction of the disc outside the hub. Missing:
solutions beyond 90° with an axial induction factor above one, for which the claim is false (`evaluate_betz_false`). -/
theorem evaluate_betz_partial {bq : RootFinder ℝ} {R : Rotor ℝ} {cs : List (Cond ℝ)} {o : EvalOut ℝ}
    (h : (evaluate bq R cs true).2 = .ok o) {m : ℕ} {c : Cond ℝ} {x : CondOut ℝ} (hc : cs[m]? = some c) (hx : o.conds[m]? = some x)
    (G : StraightRotor R) (hinv : R.inv = none) (hB : 0 < R.B) (hrho : 0 < R.rho) (hchord : ∀ i < R.n, 0 < R.chord i)
    (hcd : ∀ i < R.n, ∀ alpha Re, 0 ≤ ((R.af i).evaluate alpha Re).2) (hU : 0 < c.Uinf) (hO : 0 < c.Omega)
    (hsol : ∀ k < R.nSector, ∀ L, (distributedAeroLoads bq R c.Uinf c.Omega c.pitch (k * (360 / R.nSector))).2 = .ok L →
      ∀ i s, L.stations[i]? = some s → Converged R c.Uinf c.Omega c.pitch (k * (360 / R.nSector)) i s) :
    ∃ C, x.C = some C ∧ C.CP.val ≤ 16 / 27 * (Real.cos R.precone * (1 - (R.Rhub / R.Rtip) ^ 2)) ∧ C.CP.val < 16 / 27 := by
  obtain ⟨L, hL, -, hQ, -⟩ := sector_averages h hc hx
  obtain ⟨hP, C, hC, hCP, -⟩ := power_coefficients h hc hx
  have hcos := G.cos_pos
  have hpi := Real.pi_pos
  have hBr : (0:ℝ) < R.B := by exact_mod_cast hB
  have hRt : R.Rhub < R.Rtip := lt_trans G.first (G.range (i := 0) (by have := G.n; omega)).2
  have hR0 : 0 < R.Rtip := lt_trans G.hub hRt
  set K := 16 / 27 * (R.rho * c.Uinf ^ 3 * Real.cos R.precone ^ 3 * Real.pi) with hK
  have hK0 : 0 ≤ K := by positivity
  set w := c.Omega * Real.pi / 30 with hw
  have hw0 : 0 < w := by positivity
  have hint : ∀ k < R.nSector, (bladeInt R (L k)).Q ≤ K / (w * R.B) * ((R.Rtip ^ 2 - R.Rhub ^ 2) / 2) := by
    intro k hk
    obtain ⟨R', hR'⟩ : ∃ R', distributedAeroLoads bq R c.Uinf c.Omega c.pitch (k * (360 / R.nSector)) = (R', .ok (L k)) :=
      ⟨_, Prod.ext rfl (hL k hk)⟩
    have hlen := (solveStations_ok (distributedAeroLoads_stations hR')).1
    have e : (bladeInt R (L k)).Q = trapz (R.n + 1) (padded R.n 0 (fun i => stationArr (L k).stations SecLoads.Tp i *
        (R.r i * Real.cos R.precone)) 0) (defineCurvature (R.n + 2) (padded R.n R.Rhub R.r R.Rtip)
          (padded R.n 0 R.precurve R.precurveTip) (padded R.n 0 R.presweep R.presweepTip) R.precone).s := by
      simp only [bladeInt, thrustTorque]
      congr 1
      funext i
      simp only [defineCurvature, zAz, padded, G.curve, num_real]
      split_ifs <;> ring
    rw [e]
    refine G.integral_le _ _ (by positivity) fun i hi => ?_
    obtain ⟨s, hs⟩ : ∃ s, (L k).stations[i]? = some s := ⟨_, List.getElem?_eq_getElem (by rw [hlen]; exact hi)⟩
    have hV := G.wind c.Uinf c.Omega (k * (360 / R.nSector) * (Real.pi / 180)) hi
    have hr := G.range hi
    have hri : 0 < R.r i := lt_trans G.hub hr.1
    have := (loads_betz bq R R' _ _ _ _ _ hR' i s hs hinv hO.ne' hB G.hub hr.1 hr.2 (hchord i hi) hrho.le (hcd i hi) _ _ hV
      (by positivity) (by positivity) (hsol k hk _ (hL k hk) i s hs)).1
    have e2 : stationArr (L k).stations SecLoads.Tp i = s.loads.Tp := by simp [stationArr, hs]
    rw [e2, div_mul_eq_mul_div, le_div_iff₀ (by positivity)]
    rw [← hw] at this
    refine le_trans (le_of_eq ?_) (le_trans this (le_of_eq ?_))
    · ring
    · rw [hK]; ring
  have hdiff : 0 < R.Rtip ^ 2 - R.Rhub ^ 2 := by nlinarith [G.hub]
  have hQle : x.acc.Q.val ≤ R.B * (K / (w * R.B) * ((R.Rtip ^ 2 - R.Rhub ^ 2) / 2)) := by
    rw [hQ]
    exact mul_le_mul_of_nonneg_left (mean_le (by positivity) hint) hBr.le
  have hle : C.CP.val ≤ 16 / 27 * (Real.cos R.precone * (1 - (R.Rhub / R.Rtip) ^ 2)) := by
    rw [hCP, hP, G.radius, div_le_iff₀ (by positivity)]
    have e3 : c.Omega * (2 * Real.pi) / 60 = w := by rw [hw]; ring
    rw [e3]
    refine le_trans (mul_le_mul_of_nonneg_right hQle hw0.le) (le_of_eq ?_)
    rw [hK]
    field_simp
  refine ⟨C, hC, hle, lt_of_le_of_lt hle ?_⟩
  have h1 : Real.cos R.precone * (1 - (R.Rhub / R.Rtip) ^ 2) ≤ 1 * (1 - (R.Rhub / R.Rtip) ^ 2) := by
    refine mul_le_mul_of_nonneg_right (Real.cos_le_one _) ?_
    rw [div_pow, sub_nonneg, div_le_one (by positivity)]
    linarith
  have h2 : 0 < (R.Rhub / R.Rtip) ^ 2 := by have := G.hub; positivity
  linarith

/-- **C101** The thrust coefficient of such a rotor, with drag in the residual and positive inflow angles, is below 2. -/
theorem evaluate_thrust_limit {bq : RootFinder ℝ} {R : Rotor ℝ} {cs : List (Cond ℝ)} {o : EvalOut ℝ}
    (h : (evaluate bq R cs true).2 = .ok o) {m : ℕ} {c : Cond ℝ} {x : CondOut ℝ} (hc : cs[m]? = some c) (hx : o.conds[m]? = some x)
    (G : StraightRotor R) (hinv : R.inv = none) (hB : 0 < R.B) (hrho : 0 < R.rho) (hchord : ∀ i < R.n, 0 < R.chord i)
    (hcd : ∀ i < R.n, ∀ alpha Re, 0 ≤ ((R.af i).evaluate alpha Re).2) (hU : 0 < c.Uinf) (hO : 0 < c.Omega) (hu : R.opts.useCd = true)
    (hsol : ∀ k < R.nSector, ∀ L, (distributedAeroLoads bq R c.Uinf c.Omega c.pitch (k * (360 / R.nSector))).2 = .ok L →
      ∀ i s, L.stations[i]? = some s → 0 < s.phi ∧ Converged R c.Uinf c.Omega c.pitch (k * (360 / R.nSector)) i s) :
    ∃ C, x.C = some C ∧ C.CT.val ≤ 2 * (Real.cos R.precone * (1 - (R.Rhub / R.Rtip) ^ 2)) ∧ C.CT.val < 2 := by
  obtain ⟨L, hL, hT, -⟩ := sector_averages h hc hx
  obtain ⟨-, C, hC, -, hCT, -⟩ := power_coefficients h hc hx
  have hcos := G.cos_pos
  have hpi := Real.pi_pos
  have hca := abs_lt.mp G.cone
  have hBr : (0:ℝ) < R.B := by exact_mod_cast hB
  have hRt : R.Rhub < R.Rtip := lt_trans G.first (G.range (i := 0) (by have := G.n; omega)).2
  have hR0 : 0 < R.Rtip := lt_trans G.hub hRt
  set K := 2 * (R.rho * c.Uinf ^ 2 * Real.cos R.precone ^ 3 * Real.pi) with hK
  have hK0 : 0 ≤ K := by positivity
  have hint : ∀ k < R.nSector, (bladeInt R (L k)).T ≤ K / R.B * ((R.Rtip ^ 2 - R.Rhub ^ 2) / 2) := by
    intro k hk
    obtain ⟨R', hR'⟩ : ∃ R', distributedAeroLoads bq R c.Uinf c.Omega c.pitch (k * (360 / R.nSector)) = (R', .ok (L k)) :=
      ⟨_, Prod.ext rfl (hL k hk)⟩
    have hlen := (solveStations_ok (distributedAeroLoads_stations hR')).1
    have e : (bladeInt R (L k)).T = trapz (R.n + 1) (padded R.n 0 (fun i => stationArr (L k).stations SecLoads.Np i *
        Real.cos R.precone) 0) (defineCurvature (R.n + 2) (padded R.n R.Rhub R.r R.Rtip)
          (padded R.n 0 R.precurve R.precurveTip) (padded R.n 0 R.presweep R.presweepTip) R.precone).s := by
      simp only [bladeInt, thrustTorque, trapz, num_real]
      refine Finset.sum_congr rfl fun i hi => ?_
      rw [Finset.mem_range] at hi
      have hcone : ∀ j < R.n + 2, (defineCurvature (R.n + 2) (padded R.n R.Rhub R.r R.Rtip) (padded R.n 0 R.precurve R.precurveTip)
          (padded R.n 0 R.presweep R.presweepTip) R.precone).cone j = R.precone := by
        intro j hj
        refine cone_of_straight_blade (R.n + 2) (by omega) _ _ _ _ ⟨by linarith, by linarith⟩ ?_ ?_ j hj
        · intro l hl
          simp only [padded]
          by_cases h0 : l = 0
          · subst h0
            have h3 : ¬ R.n = 0 := by have := G.n; omega
            simp [h3, G.first]
          · by_cases h1 : l = R.n
            · subst h1
              have h3 : ¬ R.n = R.n + 1 := by omega
              simp [h0, G.last]
            · have h3 : ¬ l = R.n + 1 := by omega
              have := G.inc (l - 1) (by omega)
              rw [show l - 1 + 1 = l by omega] at this
              simp [h0, h1, h3, this]
        · intro l _
          simp only [padded, G.curve, G.curveTip]
          split_ifs <;> rfl
      rw [hcone i (by omega), hcone (i + 1) (by omega)]
      congr 2
      simp only [padded]
      split_ifs <;> ring
    rw [e]
    refine G.integral_le _ _ (by positivity) fun i hi => ?_
    obtain ⟨s, hs⟩ : ∃ s, (L k).stations[i]? = some s := ⟨_, List.getElem?_eq_getElem (by rw [hlen]; exact hi)⟩
    have hV := G.wind c.Uinf c.Omega (k * (360 / R.nSector) * (Real.pi / 180)) hi
    have hr := G.range hi
    have hri : 0 < R.r i := lt_trans G.hub hr.1
    obtain ⟨hp, hcv⟩ := hsol k hk _ (hL k hk) i s hs
    have := (loads_betz bq R R' _ _ _ _ _ hR' i s hs hinv hO.ne' hB G.hub hr.1 hr.2 (hchord i hi) hrho.le (hcd i hi) _ _ hV
      (by positivity) (by positivity) hcv).2 hu hp
    have e2 : stationArr (L k).stations SecLoads.Np i = s.loads.Np := by simp [stationArr, hs]
    rw [e2, div_mul_eq_mul_div, le_div_iff₀ (by positivity)]
    have h3 := mul_le_mul_of_nonneg_right this hcos.le
    refine le_trans (le_of_eq ?_) (le_trans h3 (le_of_eq ?_))
    · ring
    · rw [hK]; ring
  have hdiff : 0 < R.Rtip ^ 2 - R.Rhub ^ 2 := by nlinarith [G.hub]
  have hTle : x.acc.T.val ≤ R.B * (K / R.B * ((R.Rtip ^ 2 - R.Rhub ^ 2) / 2)) := by
    rw [hT]
    exact mul_le_mul_of_nonneg_left (mean_le (by positivity) hint) hBr.le
  have hle : C.CT.val ≤ 2 * (Real.cos R.precone * (1 - (R.Rhub / R.Rtip) ^ 2)) := by
    rw [hCT, G.radius, div_le_iff₀ (by positivity)]
    refine le_trans hTle (le_of_eq ?_)
    rw [hK]
    field_simp
  refine ⟨C, hC, hle, lt_of_le_of_lt hle ?_⟩
  have h1 : Real.cos R.precone * (1 - (R.Rhub / R.Rtip) ^ 2) ≤ 1 * (1 - (R.Rhub / R.Rtip) ^ 2) := by
    refine mul_le_mul_of_nonneg_right (Real.cos_le_one _) ?_
    rw [div_pow, sub_nonneg, div_le_one (by positivity)]
    linarith
  have h2 : 0 < (R.Rhub / R.Rtip) ^ 2 := by have := G.hub; positivity
  linarith

/-! ## Examples -/

/-- The induction factors of a station are those of its coefficients. -/
theorem loads_induction {bq : RootFinder ℝ} {R R' : Rotor ℝ} {Uinf Omega pitch az : ℝ} {L : LoadsOut ℝ}
    (h : distributedAeroLoads bq R Uinf Omega pitch az = (R', .ok L)) {i : ℕ} {s : Station ℝ} (hs : L.stations[i]? = some s)
    (hO : Omega ≠ 0) {Vx Vy : ℝ} (hV : rotorWind R Uinf Omega (az * (Real.pi / 180)) i = (Vx, Vy)) (hVx : Vx ≠ 0) (hVy : Vy ≠ 0) :
    let I := inductionFactors (R.r i) (R.chord i) R.Rhub R.Rtip s.phi s.loads.cl s.loads.cd R.B Vx Vy R.opts
    s.loads.a = I.a ∧ s.loads.ap = I.ap := by
  obtain ⟨d, -, -, h3, -, -⟩ := solveStation_real (loads_station h hs).2
  have hO' : (Omega == 0) = false := by simpa using hO
  simp only [stationSec, real_deg2rad, hV] at h3
  rcases secLoads_ok h3 with ⟨-, -, hl, -⟩ | ⟨h0, -⟩
  · obtain ⟨-, f2, f3⟩ := runBEM_ind R (pitch * (Real.pi / 180)) s.phi ⟨R.r i, R.chord i, s.theta, R.af i, Vx, Vy⟩
    rw [hO'] at hl
    rw [hl]
    simp only [secValues, Bool.not_false, if_true]
    exact ⟨f2, f3⟩
  · exact absurd h0 (by simp only [not_or]; exact ⟨hVx, hVy⟩)

open Classical in
/-- A root finder that knows one angle. -/
noncomputable def exactAt (p : ℝ) : RootFinder ℝ := fun f a b => if f p = 0 ∧ a ≤ p ∧ p ≤ b then .ok p else .error .valueError

theorem exactAt_exact (p : ℝ) : ExactRoots (exactAt p) := by
  intro f a b q h
  unfold exactAt at h
  split_ifs at h with hc
  simp only [Except.ok.injEq] at h
  rw [← h]
  exact hc

theorem exactAt_solve {p : ℝ} {f : ℝ → ℝ} (h0 : f p = 0) (h1 : (bracket f).1 ≤ p ∧ p ≤ (bracket f).2) : solvePhi (exactAt p) f = .ok (p, false) := by
  unfold solvePhi exactAt
  simp only
  rw [if_pos ⟨h0, h1⟩]

/-- Two stations, untwisted, the airfoil without drag, a residual without losses and wake rotation, one turn in `2π` seconds. -/
noncomputable def annulusRotor (r chord : ℕ → ℝ) (cl : ℝ → ℝ) (Rhub Rtip : ℝ) : Rotor ℝ :=
  { demoRotor with n := 2, r := r, chord := chord, theta := fun _ => 0, opts := ⟨true, false, false, false⟩, Rhub := Rhub, Rtip := Rtip,
                   rotorR := Rtip, af := fun _ => ⟨fun alpha _ => (cl alpha, 0), fun _ _ => 0, fun _ _ => 0, fun _ _ => 0, fun _ _ => 0⟩ }

theorem annulusRotor_straight {r chord : ℕ → ℝ} {cl : ℝ → ℝ} {Rhub Rtip : ℝ} (h0 : 0 < Rhub) (h1 : Rhub < r 0) (h2 : r 0 < r 1) (h3 : r 1 < Rtip) :
    StraightRotor (annulusRotor r chord cl Rhub Rtip) where
  n := le_rfl
  hub := h0
  first := h1
  inc i hi := by
    obtain rfl : i = 0 := by have : i + 1 < 2 := hi; omega
    exact h2
  last := h3
  curve _ := rfl
  curveTip := rfl
  sweep _ := rfl
  sweepTip := rfl
  cone := by simp [annulusRotor, demoRotor, Real.pi_pos]
  radius := by simp [annulusRotor, demoRotor]
  axial := ⟨rfl, rfl, rfl⟩

/-- The residual of its stations. -/
theorem annulusRotor_residual {r chord : ℕ → ℝ} {cl : ℝ → ℝ} {Rhub Rtip : ℝ} (h0 : 0 < Rhub) (h1 : Rhub < r 0) (h2 : r 0 < r 1) (h3 : r 1 < Rtip)
    (U az : ℝ) {i : ℕ} (hi : i < 2) (phi : ℝ) :
    let k := 3 * chord i / (2 * Real.pi * r i) * (cl phi * Real.cos phi) / (4 * Real.sin phi ^ 2)
    stationResidual (annulusRotor r chord cl Rhub Rtip) U (30 / Real.pi) 0 az i phi
      = bemResidual phi (Real.sin phi) (Real.cos phi) (axialInduction phi k 1) k 0 U (r i) := by
  intro k
  have hpi := Real.pi_ne_zero
  have hV := (annulusRotor_straight (chord := chord) (cl := cl) h0 h1 h2 h3).wind U (30 / Real.pi) (az * (Real.pi / 180)) (i := i) hi
  have hV' : rotorWind (annulusRotor r chord cl Rhub Rtip) U (30 / Real.pi) (az * (Real.pi / 180)) i = (U, r i) := by
    rw [hV]
    simp [annulusRotor, demoRotor, hpi]
  have hin : (annulusRotor r chord cl Rhub Rtip).inv = none := rfl
  simp only [stationResidual, hin, real_deg2rad, hV', errFun_eq]
  obtain ⟨Re, hRe⟩ := runBEM_coef (annulusRotor r chord cl Rhub Rtip) (0 * (Real.pi / 180)) phi
    ⟨r i, chord i, 0, (annulusRotor r chord cl Rhub Rtip).af i, U, r i⟩
  have e : (annulusRotor r chord cl Rhub Rtip).theta i = 0 := rfl
  have e1 : (annulusRotor r chord cl Rhub Rtip).r i = r i := rfl
  have e2 : (annulusRotor r chord cl Rhub Rtip).chord i = chord i := rfl
  rw [e, e1, e2]
  have e3 : ((annulusRotor r chord cl Rhub Rtip).af i).evaluate (phi - (0 + 0 * (Real.pi / 180))) Re = (cl phi, 0) := by
    simp [annulusRotor]
  dsimp only at hRe
  rw [e3, Prod.mk.injEq] at hRe
  rw [hRe.1, hRe.2]
  rw [(indOut_eq _ _ _ _ _ _ _ _ _ _ _).2.2]
  have e4 : kSpec (annulusRotor r chord cl Rhub Rtip).opts (annulusRotor r chord cl Rhub Rtip).B (r i) (chord i)
      (annulusRotor r chord cl Rhub Rtip).Rhub (annulusRotor r chord cl Rhub Rtip).Rtip phi (cl phi) 0 = k := by
    simp [kSpec, cnSpec, lossSpec, annulusRotor, demoRotor, k]
  have e5 : lossSpec (annulusRotor r chord cl Rhub Rtip).opts (annulusRotor r chord cl Rhub Rtip).B (r i)
      (annulusRotor r chord cl Rhub Rtip).Rhub (annulusRotor r chord cl Rhub Rtip).Rtip phi = 1 := by
    simp [lossSpec, annulusRotor]
  rw [e4, e5]
  rfl

/-- Its evaluation. -/
theorem annulusRotor_evaluate (bq : RootFinder ℝ) (hbq : OnlyValueError bq) (r chord : ℕ → ℝ) (cl : ℝ → ℝ) (Rhub Rtip U : ℝ) :
    ∃ o x, (evaluate bq (annulusRotor r chord cl Rhub Rtip) [⟨U, 30 / Real.pi, 0⟩] true).2 = .ok o ∧ o.conds = [x] := by
  obtain ⟨acc, h⟩ := (condAcc_ok_iff bq (annulusRotor r chord cl Rhub Rtip) ⟨U, 30 / Real.pi, 0⟩).mpr fun k _ => by
    obtain ⟨L, hL, -⟩ := distributedAeroLoads_finds bq hbq
      (annulusRotor r chord cl Rhub Rtip) U (30 / Real.pi) 0 (k * (360 / (annulusRotor r chord cl Rhub Rtip).nSector)) (by simp [annulusRotor, demoRotor]) rfl
      (by simp [Real.pi_ne_zero])
    exact ⟨L, hL⟩
  obtain ⟨W, hW⟩ := Option.isSome_iff_exists.mp ((condAcc_W h).mpr (by simp [annulusRotor, demoRotor]))
  have ho := (evaluate_single bq (annulusRotor r chord cl Rhub Rtip) ⟨U, 30 / Real.pi, 0⟩ true ⟨_, W⟩).mpr ⟨acc, h, hW, rfl⟩
  obtain ⟨x, hx⟩ := List.length_eq_one_iff.mp (evaluate_length ho)
  exact ⟨_, x, ho, hx⟩

theorem exactAt_onlyValueError (p : ℝ) : OnlyValueError (exactAt p) := by
  intro f a b e h
  unfold exactAt at h
  split_ifs at h
  simpa using h.symm

/-- The angle of a station for which the root finder succeeds. -/
theorem exactAt_station {p : ℝ} {R R' : Rotor ℝ} {Uinf Omega pitch az : ℝ} {L : LoadsOut ℝ}
    (h : distributedAeroLoads (exactAt p) R Uinf Omega pitch az = (R', .ok L)) (hO : Omega ≠ 0) (hit : R.iterRe ≠ 0) {i : ℕ} {s : Station ℝ}
    (hs : L.stations[i]? = some s) (h0 : stationResidual R Uinf Omega pitch az i p = 0)
    (h1 : (bracket (stationResidual R Uinf Omega pitch az i)).1 ≤ p ∧ p ≤ (bracket (stationResidual R Uinf Omega pitch az i)).2) :
    s.phi = p ∧ s.warned = false := by
  obtain ⟨d, h2, -⟩ := solveStation_real (loads_station h hs).2
  have hf : stationErrf R (deg2rad pitch) (rotorWind R Uinf Omega (deg2rad az)) i = stationResidual R Uinf Omega pitch az i := rfl
  unfold stationPhi at h2
  rw [if_neg (by simpa using hO), if_neg hit, hf, exactAt_solve h0 h1] at h2
  simp only [Except.ok.injEq, Prod.mk.injEq] at h2
  exact ⟨h2.1.symm, h2.2.symm⟩

/-- Stations with an inflow angle of 45° and axial induction factors 1/4 and 1/8 in a wind of 8 m/s. -/
noncomputable def turbine : Rotor ℝ :=
  annulusRotor (fun i => 6 + i) (fun i => 4 * Real.sqrt 2 * Real.pi * (2 - i) / 3) (fun alpha => if alpha < 1 / 2 then 0 else 1) 1 10

theorem turbine_residual (az : ℝ) {i : ℕ} (hi : i < 2) :
    stationResidual turbine 8 (30 / Real.pi) 0 az i (Real.pi / 4) = 0 ∧
    bracket (stationResidual turbine 8 (30 / Real.pi) 0 az i) = (1 / 1000000, Real.pi / 2) := by
  have hpi := Real.pi_gt_three
  have hir : (i : ℝ) ≤ 1 := by exact_mod_cast (by omega : i ≤ 1)
  have hi0 : (0:ℝ) ≤ i := by positivity
  have key := annulusRotor_residual (r := fun i => 6 + i) (chord := fun i => 4 * Real.sqrt 2 * Real.pi * (2 - i) / 3)
    (cl := fun alpha => if alpha < 1 / 2 then 0 else 1) (Rhub := 1) (Rtip := 10) (by norm_num) (by norm_num) (by norm_num) (by norm_num) 8 az hi
  have hr : (0:ℝ) < 6 + i := by linarith
  have hchord : (3:ℝ) * (4 * Real.sqrt 2 * Real.pi * (2 - i) / 3) / (2 * Real.pi * (6 + i)) = 2 * Real.sqrt 2 * (2 - i) / (6 + i) := by
    field_simp; ring
  simp only [hchord] at key
  change ∀ phi, stationResidual turbine 8 (30 / Real.pi) 0 az i phi = _ at key
  have h2 : Real.sqrt 2 ^ 2 = 2 := Real.sq_sqrt (by norm_num)
  have h20 : 0 < Real.sqrt 2 := by positivity
  constructor
  · rw [key]
    have hn : ¬ Real.pi / 4 < 1 / 2 := by linarith
    have hk : 2 * Real.sqrt 2 * (2 - i) / (6 + i) * ((if Real.pi / 4 < 1 / 2 then 0 else 1) * Real.cos (Real.pi / 4)) /
        (4 * Real.sin (Real.pi / 4) ^ 2) = (2 - i) / (6 + i) := by
      rw [if_neg hn, Real.cos_pi_div_four, Real.sin_pi_div_four]
      field_simp
      ring
    have hp : 0 < Real.pi / 4 := by linarith
    rw [hk, axial_momentum hp (by rw [div_le_div_iff₀ hr (by norm_num)]; linarith), Real.cos_pi_div_four, Real.sin_pi_div_four]
    simp only [bemResidual, hp, if_true]
    have e : 1 - (2 - (i:ℝ)) / (6 + i) / (1 + (2 - i) / (6 + i)) = (6 + i) / 8 := by
      have : (6 + (i:ℝ) + (2 - i)) ≠ 0 := by ring_nf; norm_num
      field_simp
      ring
    rw [e]
    ring
  · have f1 : stationResidual turbine 8 (30 / Real.pi) 0 az i (1 / 1000000) ≤ 0 := by
      rw [key]
      have hk : ∀ c d e : ℝ, c * ((if (1:ℝ) / 1000000 < 1 / 2 then 0 else 1) * d) / e = 0 := by
        intro c d e
        rw [if_pos (by norm_num)]; simp
      have hp : (0:ℝ) < 1 / 1000000 := by norm_num
      rw [hk, axial_momentum hp (by norm_num)]
      simp only [bemResidual, hp, if_true]
      have s1 : Real.sin (1 / 1000000) ≤ 1 / 1000000 := Real.sin_le (by norm_num)
      have s2 : 1 - (1 / 1000000 : ℝ) ^ 2 / 2 ≤ Real.cos (1 / 1000000) := Real.one_sub_sq_div_two_le_cos
      have s3 : Real.cos (1 / 1000000) ≤ Real.cos (1 / 1000000) / ((6 + i) / 8) := by
        rw [le_div_iff₀ (by positivity)]
        have : 0 ≤ Real.cos (1 / 1000000) := le_trans (by norm_num) s2
        nlinarith
      norm_num at s1 s2 s3 ⊢
      linarith
    have f2 : 0 ≤ stationResidual turbine 8 (30 / Real.pi) 0 az i (Real.pi / 2) := by
      rw [key]
      have hp : 0 < Real.pi / 2 := by linarith
      rw [Real.cos_pi_div_two, Real.sin_pi_div_two]
      simp only [mul_zero, zero_div]
      rw [axial_momentum hp (by norm_num)]
      simp [bemResidual, hp]
    have f3 : ¬ 0 < stationResidual turbine 8 (30 / Real.pi) 0 az i (1 / 1000000) * stationResidual turbine 8 (30 / Real.pi) 0 az i (Real.pi / 2) :=
      not_lt.mpr (mul_nonpos_of_nonpos_of_nonneg f1 f2)
    unfold bracket bemEps
    simp only [num_real]
    push_cast
    rw [if_neg f3]

/-- **C101** is not vacuous: every station of this rotor is solved without a warning, and its power coefficient is below the limit. -/
theorem turbine_betz : ∃ o x C, (evaluate (exactAt (Real.pi / 4)) turbine [⟨8, 30 / Real.pi, 0⟩] true).2 = .ok o ∧ o.conds = [x] ∧
    x.C = some C ∧ C.CP.val < 16 / 27 ∧ C.CT.val < 2 := by
  have hpi := Real.pi_gt_three
  obtain ⟨o, x, h, hx⟩ := annulusRotor_evaluate (exactAt (Real.pi / 4)) (exactAt_onlyValueError _) (fun i => 6 + i)
    (fun i => 4 * Real.sqrt 2 * Real.pi * (2 - i) / 3) (fun alpha => if alpha < 1 / 2 then 0 else 1) 1 10 8
  change (evaluate (exactAt (Real.pi / 4)) turbine [⟨8, 30 / Real.pi, 0⟩] true).2 = .ok o at h
  have G : StraightRotor turbine := annulusRotor_straight (by norm_num) (by norm_num) (by norm_num) (by norm_num)
  have hsol : ∀ k < turbine.nSector, ∀ L, (distributedAeroLoads (exactAt (Real.pi / 4)) turbine 8 (30 / Real.pi) 0
        (k * (360 / turbine.nSector))).2 = .ok L →
      ∀ i s, L.stations[i]? = some s → 0 < s.phi ∧ Converged turbine 8 (30 / Real.pi) 0 (k * (360 / turbine.nSector)) i s := by
    intro k _ L hL i s hs
    obtain ⟨R', hR'⟩ : ∃ R', distributedAeroLoads (exactAt (Real.pi / 4)) turbine 8 (30 / Real.pi) 0 (k * (360 / turbine.nSector)) = (R', .ok L) :=
      ⟨_, Prod.ext rfl hL⟩
    have hi : i < 2 := (loads_station hR' hs).1
    obtain ⟨h1, h2⟩ := turbine_residual (k * (360 / turbine.nSector)) hi
    obtain ⟨g1, g2⟩ := exactAt_station hR' (by positivity) (by simp [turbine, annulusRotor, demoRotor]) hs h1
      (by rw [h2]; constructor <;> simp only <;> linarith)
    exact ⟨by rw [g1]; linarith, converged_of_exact (exactAt_exact _) hR' (by positivity) hs g2 (Or.inl (by rw [g1]; linarith))⟩
  have hchord : ∀ i < turbine.n, 0 < turbine.chord i := by
    intro i hi
    have hir : (i : ℝ) ≤ 1 := by exact_mod_cast (by have : i < 2 := hi; omega : i ≤ 1)
    have : (0:ℝ) < 2 - i := by linarith
    simp only [turbine, annulusRotor]
    positivity
  have hx0 : o.conds[0]? = some x := by rw [hx]; rfl
  have hB : 0 < turbine.B := by simp [turbine, annulusRotor, demoRotor]
  have hrho : 0 < turbine.rho := by norm_num [turbine, annulusRotor, demoRotor]
  obtain ⟨C, hC, -, h1⟩ := evaluate_betz_partial h (m := 0) rfl hx0 G rfl hB hrho hchord (fun _ _ _ _ => le_rfl) (by norm_num) (by positivity)
    fun k hk L hL i s hs => (hsol k hk L hL i s hs).2
  obtain ⟨C', hC', -, h2⟩ := evaluate_thrust_limit h (m := 0) rfl hx0 G rfl hB hrho hchord (fun _ _ _ _ => le_rfl) (by norm_num) (by positivity) rfl hsol
  rw [hC, Option.some.injEq] at hC'
  exact ⟨o, x, C, h, hx, hC, h1, hC' ▸ h2⟩

/-- Stations at which the code finds an inflow angle of 135° and axial induction factors 2 and 3 in a wind of 10 m/s. -/
noncomputable def runaway : Rotor ℝ :=
  annulusRotor (fun i => 10 + 10 * i) (fun i => 2 * Real.sqrt 2 * Real.pi / 3 * (20 + 10 * i)) (fun _ => 2) 5 25

private theorem runaway_low {i sn cs : ℝ} (hi0 : 0 ≤ i) (s0 : 0 < sn) (s1 : sn ≤ 1 / 1000000) (hcs : 1 / 2 ≤ cs) (c2 : cs ≤ 1) :
    0 < bemResidual (1 / 1000000) sn cs (axialInduction (1 / 1000000) (Real.sqrt 2 * (2 + i) / (1 + i) * (2 * cs) / (4 * sn ^ 2)) 1)
      (Real.sqrt 2 * (2 + i) / (1 + i) * (2 * cs) / (4 * sn ^ 2)) 0 10 (10 + 10 * i) := by
  have hr : 0 < 1 + i := by linarith
  have hp : (0:ℝ) < 1 / 1000000 := by norm_num
  have hl : ((10:ℝ) + 10 * i) / 10 = 1 + i := by ring
  have h20 : 0 < Real.sqrt 2 := by positivity
  set k := Real.sqrt 2 * (2 + i) / (1 + i) * (2 * cs) / (4 * sn ^ 2) with hk
  have h21 : 1 ≤ Real.sqrt 2 := by rw [Real.one_le_sqrt]; norm_num
  have hM : 0 < 1 / (1 + i) := by positivity
  have hM1 : 1 / (1 + i) ≤ 1 := by rw [div_le_one hr]; linarith
  have hks : k * sn ^ 2 = Real.sqrt 2 * (1 + 1 / (1 + i)) * cs / 2 := by
    rw [hk]; field_simp; ring
  set M := 1 / (1 + i) with hMdef
  have hmul : 1 * (1 + M) * cs ≤ Real.sqrt 2 * (1 + M) * cs :=
    mul_le_mul_of_nonneg_right (mul_le_mul_of_nonneg_right h21 (by linarith)) (by linarith)
  have hks2 : M ^ 2 * cs ≤ k * sn ^ 2 := by
    rw [hks]
    have h3 : M ^ 2 ≤ (1 + M) / 2 := by nlinarith
    have h4 := mul_le_mul_of_nonneg_right h3 (by linarith : 0 ≤ cs)
    linarith
  have hks3 : 1 / 4 ≤ k * sn ^ 2 := by
    rw [hks]
    have := mul_nonneg hM.le (by linarith : 0 ≤ cs)
    linarith
  have hsn2 : sn ^ 2 ≤ (1 / 1000000) ^ 2 := pow_le_pow_left₀ s0.le s1 2
  have hk10 : 10 ≤ k := by
    by_contra hc
    push Not at hc
    have := mul_le_mul_of_nonneg_right hc.le (sq_nonneg sn)
    norm_num at hsn2
    linarith
  have hg3 : 1 / 1000000 ≤ |buhlG3 1 k| := by
    rw [buhlG3_real, abs_of_nonneg (by linarith)]
    linarith
  rw [axial_buhl hp one_pos (by linarith) hg3]
  simp only [bemResidual, hp, if_true, hl]
  have hw0 : 0 ≤ Real.sqrt (buhlG2 1 k) := Real.sqrt_nonneg _
  have hw : Real.sqrt (buhlG2 1 k) ^ 2 = 2 * k - 1 / 3 := by
    rw [buhlG2_real, Real.sq_sqrt (by linarith)]; ring
  generalize Real.sqrt (buhlG2 1 k) = w at hw hw0
  have e : sn / (1 - (1 - 1 / (w + (5 / 3 - 1)))) = sn * w + sn * (2 / 3) := by
    have : w + (5 / 3 - 1) ≠ 0 := by linarith
    field_simp
    ring
  rw [e, sub_zero, mul_one, div_eq_mul_one_div cs, ← hMdef]
  have h5 : cs * M ≤ sn * w := by
    refine (sq_le_sq₀ (mul_nonneg (by linarith) hM.le) (by positivity)).mp ?_
    have h6 : (sn * w) ^ 2 = 2 * (k * sn ^ 2) - sn ^ 2 / 3 := by rw [mul_pow, hw]; ring
    rw [h6]
    have h7 : sn ^ 2 / 3 ≤ k * sn ^ 2 := by
      have := mul_le_mul_of_nonneg_right hk10 (sq_nonneg sn)
      linarith [sq_nonneg sn]
    have h8 : (cs * M) ^ 2 ≤ M ^ 2 * cs := by
      have h3 : cs ^ 2 ≤ cs := by nlinarith
      have h4 := mul_le_mul_of_nonneg_left h3 (sq_nonneg M)
      rw [mul_pow, mul_comm]
      exact h4
    linarith
  have h9 : 0 < sn * (2 / 3) := by positivity
  linarith

theorem runaway_residual (az : ℝ) {i : ℕ} (hi : i < 2) :
    stationResidual runaway 10 (30 / Real.pi) 0 az i (3 * Real.pi / 4) = 0 ∧
    bracket (stationResidual runaway 10 (30 / Real.pi) 0 az i) = (Real.pi / 2, Real.pi - 1 / 1000000) := by
  have hpi := Real.pi_gt_three
  have hi0 : (0:ℝ) ≤ i := by positivity
  have key := annulusRotor_residual (r := fun i => 10 + 10 * i) (chord := fun i => 2 * Real.sqrt 2 * Real.pi / 3 * (20 + 10 * i))
    (cl := fun _ => 2) (Rhub := 5) (Rtip := 25) (by norm_num) (by norm_num) (by norm_num) (by norm_num) 10 az hi
  have hr : (0:ℝ) < 1 + i := by linarith
  have hchord : (3:ℝ) * (2 * Real.sqrt 2 * Real.pi / 3 * (20 + 10 * i)) / (2 * Real.pi * (10 + 10 * i)) = Real.sqrt 2 * (2 + i) / (1 + i) := by
    rw [show (10:ℝ) + 10 * i = 10 * (1 + i) by ring]
    field_simp; ring
  simp only [hchord] at key
  change ∀ phi, stationResidual runaway 10 (30 / Real.pi) 0 az i phi = _ at key
  have h2 : Real.sqrt 2 ^ 2 = 2 := Real.sq_sqrt (by norm_num)
  have h20 : 0 < Real.sqrt 2 := by positivity
  have hl : ((10:ℝ) + 10 * i) / 10 = 1 + i := by ring
  have hs34 : Real.sin (3 * Real.pi / 4) = Real.sqrt 2 / 2 := by
    rw [show 3 * Real.pi / 4 = Real.pi - Real.pi / 4 by ring, Real.sin_pi_sub, Real.sin_pi_div_four]
  have hc34 : Real.cos (3 * Real.pi / 4) = -(Real.sqrt 2 / 2) := by
    rw [show 3 * Real.pi / 4 = Real.pi - Real.pi / 4 by ring, Real.cos_pi_sub, Real.cos_pi_div_four]
  constructor
  · rw [key, hs34, hc34]
    have hk : Real.sqrt 2 * (2 + i) / (1 + i) * (2 * -(Real.sqrt 2 / 2)) / (4 * (Real.sqrt 2 / 2) ^ 2) = -((2 + i) / (1 + i)) := by
      field_simp
      ring
    have hp : 0 < 3 * Real.pi / 4 := by linarith
    have hneg : -((2 + (i:ℝ)) / (1 + i)) ≤ 2 / 3 := by
      have : 0 ≤ (2 + (i:ℝ)) / (1 + i) := by positivity
      linarith
    rw [hk, axial_momentum hp hneg]
    simp only [bemResidual, hp, if_true, hl]
    have e : 1 - -((2 + (i:ℝ)) / (1 + i)) / (1 + -((2 + i) / (1 + i))) = -(1 + i) := by
      have : 1 + -((2 + (i:ℝ)) / (1 + i)) = -(1 / (1 + i)) := by field_simp; ring
      rw [this]
      field_simp
      ring
    rw [e]
    field_simp
    ring
  · have f1 : 0 < stationResidual runaway 10 (30 / Real.pi) 0 az i (1 / 1000000) := by
      rw [key]
      have hp : (0:ℝ) < 1 / 1000000 := by norm_num
      have s1 : Real.sin (1 / 1000000) ≤ 1 / 1000000 := Real.sin_le (by norm_num)
      have s0 : 0 < Real.sin (1 / 1000000) := Real.sin_pos_of_pos_of_lt_pi hp (by linarith)
      have c1 : 1 - (1 / 1000000 : ℝ) ^ 2 / 2 ≤ Real.cos (1 / 1000000) := Real.one_sub_sq_div_two_le_cos
      have c2 : Real.cos (1 / 1000000) ≤ 1 := Real.cos_le_one _
      exact runaway_low hi0 s0 s1 (le_trans (by norm_num) c1) c2
    have f2 : 0 < stationResidual runaway 10 (30 / Real.pi) 0 az i (Real.pi / 2) := by
      rw [key]
      have hp : 0 < Real.pi / 2 := by linarith
      rw [Real.cos_pi_div_two, Real.sin_pi_div_two]
      simp only [mul_zero, zero_div]
      rw [axial_momentum hp (by norm_num)]
      simp [bemResidual, hp]
    have f4 : ¬ stationResidual runaway 10 (30 / Real.pi) 0 az i (-Real.pi / 4) < 0 := by
      rw [key, show -Real.pi / 4 = -(Real.pi / 4) by ring, Real.sin_neg, Real.cos_neg, Real.cos_pi_div_four, Real.sin_pi_div_four]
      have hn : ¬ 0 < -(Real.pi / 4) := by linarith
      simp only [bemResidual, hn, if_false, hl]
      have hk : Real.sqrt 2 * (2 + i) / (1 + i) * (2 * (Real.sqrt 2 / 2)) / (4 * (-(Real.sqrt 2 / 2)) ^ 2) = (2 + i) / (1 + i) := by
        field_simp
        ring
      rw [hk]
      have : -(Real.sqrt 2 / 2) * (1 - (2 + (i:ℝ)) / (1 + i)) - Real.sqrt 2 / 2 / (1 + i) * (1 - 0) = 0 := by
        field_simp
        ring
      rw [this]
      exact lt_irrefl _
    unfold bracket bemEps
    simp only [num_real]
    push_cast
    rw [if_pos (mul_pos f1 f2), if_neg (fun h => f4 h.1)]

/-- The tangential load of its stations, found without a warning. -/
theorem runaway_load {az : ℝ} {R' : Rotor ℝ} {L : LoadsOut ℝ}
    (h : distributedAeroLoads (exactAt (3 * Real.pi / 4)) runaway 10 (30 / Real.pi) 0 az = (R', .ok L)) {i : ℕ} {s : Station ℝ}
    (hs : L.stations[i]? = some s) :
    s.warned = false ∧ s.loads.a = 2 + i ∧ s.loads.Tp = runaway.rho * (4 * Real.pi / 3) * (10 + 10 * i) ^ 2 * (20 + 10 * i) := by
  have hpi := Real.pi_gt_three
  have hi : i < 2 := (loads_station h hs).1
  have hi0 : (0:ℝ) ≤ i := by positivity
  have hi1 : (i:ℝ) ≤ 1 := by exact_mod_cast (by omega : i ≤ 1)
  obtain ⟨h1, h2⟩ := runaway_residual az hi
  have hO : 30 / Real.pi ≠ 0 := by positivity
  obtain ⟨g1, g2⟩ := exactAt_station h hO (by simp [runaway, annulusRotor, demoRotor]) hs h1
    (by rw [h2]; constructor <;> simp only <;> linarith)
  have G : StraightRotor runaway := annulusRotor_straight (by norm_num) (by norm_num) (by norm_num) (by norm_num)
  have hV : rotorWind runaway 10 (30 / Real.pi) (az * (Real.pi / 180)) i = (10, 10 + 10 * (i:ℝ)) := by
    rw [G.wind _ _ _ (i := i) hi]
    have := Real.pi_ne_zero
    simp [runaway, annulusRotor, demoRotor, this]
  have hVy : (10:ℝ) + 10 * i ≠ 0 := by positivity
  obtain ⟨-, Re, hc⟩ := distributedAeroLoads_coefficients _ _ _ _ _ _ _ _ h i s hs (by rw [hV]; exact ⟨by norm_num, hVy⟩)
  have hcl : s.loads.cl = 2 ∧ s.loads.cd = 0 := by
    simpa [runaway, annulusRotor] using hc
  obtain ⟨ha, hap⟩ := loads_induction h hs hO hV (by norm_num) hVy
  obtain ⟨e1, e2, -⟩ := indOut_eq (runaway.r i) (runaway.chord i) runaway.Rhub runaway.Rtip s.phi s.loads.cl s.loads.cd runaway.B 10 (10 + 10 * i)
    runaway.opts
  have h20 : 0 < Real.sqrt 2 := by positivity
  have h22 : Real.sqrt 2 ^ 2 = 2 := Real.sq_sqrt (by norm_num)
  have hs34 : Real.sin (3 * Real.pi / 4) = Real.sqrt 2 / 2 := by
    rw [show 3 * Real.pi / 4 = Real.pi - Real.pi / 4 by ring, Real.sin_pi_sub, Real.sin_pi_div_four]
  have hc34 : Real.cos (3 * Real.pi / 4) = -(Real.sqrt 2 / 2) := by
    rw [show 3 * Real.pi / 4 = Real.pi - Real.pi / 4 by ring, Real.cos_pi_sub, Real.cos_pi_div_four]
  have hk : kSpec runaway.opts runaway.B (runaway.r i) (runaway.chord i) runaway.Rhub runaway.Rtip s.phi s.loads.cl s.loads.cd
      = -((2 + i) / (1 + i)) := by
    rw [hcl.1, hcl.2, g1]
    simp only [kSpec, cnSpec, lossSpec, runaway, annulusRotor, demoRotor, hs34, hc34, Bool.false_eq_true, if_false, if_true]
    rw [show (10:ℝ) + 10 * i = 10 * (1 + i) by ring]
    have : (1:ℝ) + i ≠ 0 := by positivity
    field_simp
    ring
  have hF : lossSpec runaway.opts runaway.B (runaway.r i) runaway.Rhub runaway.Rtip s.phi = 1 := by
    simp [lossSpec, runaway, annulusRotor]
  have hr : (0:ℝ) < 1 + i := by linarith
  have ha2 : s.loads.a = 2 + i := by
    rw [ha, e1, hk, hF, axial_momentum (by rw [g1]; linarith) (by
      have : 0 ≤ (2 + (i:ℝ)) / (1 + i) := by positivity
      linarith)]
    have : 1 + -((2 + (i:ℝ)) / (1 + i)) = -(1 / (1 + i)) := by field_simp; ring
    rw [this]
    field_simp
  have hap2 : s.loads.ap = 0 := by
    rw [hap, e2]
    simp [runaway, annulusRotor]
  obtain ⟨-, hW, -⟩ := distributedAeroLoads_speed _ _ _ _ _ _ _ _ h i s hs 10 (10 + 10 * i) hV (by norm_num) hVy
  obtain ⟨-, hW2⟩ := hW (by rw [ha2, abs_of_nonneg (by linarith)]; linarith) (by rw [hap2]; norm_num)
  obtain ⟨hq, -, hT, -⟩ := distributedAeroLoads_forces _ _ _ _ _ _ _ _ h i s hs
  refine ⟨g2, ha2, ?_⟩
  rw [hT, hq, hW2, hcl.1, hcl.2, g1, hs34, ha2, hap2]
  have e3 : runaway.chord i = 2 * Real.sqrt 2 * Real.pi / 3 * (20 + 10 * i) := rfl
  rw [e3]
  linear_combination (runaway.rho * 100 * (1 + i) ^ 2 * (2 * Real.pi / 3 * (20 + 10 * i))) * h22

/-- **C101** is false without the restriction on the inflow angle: a rotor in axial wind whose stations are all solved without a
warning by an exact root finder, with drag in the residual and airfoils without drag, and a reported power coefficient of 24.96. The
code searches beyond 90° and accepts a solution with an axial induction factor above one. -/
theorem evaluate_betz_false : ∃ (bq : RootFinder ℝ) (R : Rotor ℝ) (c : Cond ℝ), ExactRoots bq ∧ StraightRotor R ∧ R.inv = none ∧ 0 < R.B ∧
    0 < R.rho ∧ R.opts.useCd = true ∧ (∀ i < R.n, 0 < R.chord i) ∧ (∀ i < R.n, ∀ alpha Re, 0 ≤ ((R.af i).evaluate alpha Re).2) ∧
    0 < c.Uinf ∧ 0 < c.Omega ∧
    (∀ az L, (distributedAeroLoads bq R c.Uinf c.Omega c.pitch az).2 = .ok L → ∀ s ∈ L.stations, s.warned = false ∧ 1 < s.loads.a) ∧
    ∃ o x C, (evaluate bq R [c] true).2 = .ok o ∧ o.conds = [x] ∧ x.C = some C ∧ C.CP.val = 624 / 25 := by
  have hpi := Real.pi_gt_three
  have hpi0 := Real.pi_ne_zero
  have G : StraightRotor runaway := annulusRotor_straight (by norm_num) (by norm_num) (by norm_num) (by norm_num)
  have hrho : 0 < runaway.rho := by norm_num [runaway, annulusRotor, demoRotor]
  refine ⟨exactAt (3 * Real.pi / 4), runaway, ⟨10, 30 / Real.pi, 0⟩, exactAt_exact _, G, rfl, by simp [runaway, annulusRotor, demoRotor], hrho,
    rfl, fun i _ => by simp only [runaway, annulusRotor]; positivity, fun _ _ _ _ => le_rfl, by norm_num, by positivity, ?_, ?_⟩
  · intro az L hL s hs
    obtain ⟨i, hi⟩ := List.mem_iff_getElem?.mp hs
    obtain ⟨h1, h2, -⟩ := runaway_load (R' := _) (L := L) (Prod.ext rfl hL) hi
    exact ⟨h1, by rw [h2]; have : (0:ℝ) ≤ i := by positivity
                  linarith⟩
  · obtain ⟨o, x, h, hx⟩ := annulusRotor_evaluate (exactAt (3 * Real.pi / 4)) (exactAt_onlyValueError _) (fun i => 10 + 10 * i)
      (fun i => 2 * Real.sqrt 2 * Real.pi / 3 * (20 + 10 * i)) (fun _ => 2) 5 25 10
    change (evaluate (exactAt (3 * Real.pi / 4)) runaway [⟨10, 30 / Real.pi, 0⟩] true).2 = .ok o at h
    have hx0 : o.conds[0]? = some x := by rw [hx]; rfl
    obtain ⟨L, hL, -, hQ, -⟩ := sector_averages h (m := 0) rfl hx0
    obtain ⟨hP, C, hC, hCP, -⟩ := power_coefficients h (m := 0) rfl hx0
    refine ⟨o, x, C, h, hx, hC, ?_⟩
    have hns : runaway.nSector = 1 := rfl
    have hL0 := hL 0 (by rw [hns]; norm_num)
    have hR' : distributedAeroLoads (exactAt (3 * Real.pi / 4)) runaway 10 (30 / Real.pi) 0 ((0:ℕ) * (360 / runaway.nSector)) = (_, .ok (L 0)) :=
      Prod.ext rfl hL0
    have hlen := (solveStations_ok (distributedAeroLoads_stations hR')).1
    have hT : ∀ i < 2, stationArr (L 0).stations SecLoads.Tp i = runaway.rho * (4 * Real.pi / 3) * (10 + 10 * i) ^ 2 * (20 + 10 * i) := by
      intro i hi
      obtain ⟨s, hs⟩ : ∃ s, (L 0).stations[i]? = some s := ⟨_, List.getElem?_eq_getElem (by rw [hlen]; exact hi)⟩
      have := (runaway_load hR' hs).2.2
      simp [stationArr, hs, this]
    have hQ' : (bladeInt runaway (L 0)).Q = 15 / 2 * (stationArr (L 0).stations SecLoads.Tp 0 * 10 + stationArr (L 0).stations SecLoads.Tp 1 * 20) := by
      simp only [bladeInt, thrustTorque, trapz, num_real]
      have hn : runaway.n = 2 := rfl
      have h25 : Real.sqrt 25 = 5 := by rw [show (25:ℝ) = 5 ^ 2 by norm_num]; exact Real.sqrt_sq (by norm_num)
      have h100 : Real.sqrt 100 = 10 := by rw [show (100:ℝ) = 10 ^ 2 by norm_num]; exact Real.sqrt_sq (by norm_num)
      rw [hn]
      simp only [Finset.sum_range_succ, Finset.sum_range_zero, defineCurvature, zAz, pathLength, segLength, num_real, padded, runaway, annulusRotor,
        demoRotor]
      norm_num
      rw [h25, h100]
      ring
    rw [hCP, hP, hQ, hns]
    simp only [Finset.sum_range_one]
    rw [hQ', hT 0 (by norm_num), hT 1 (by norm_num)]
    have e1 : runaway.rotorR = 25 := rfl
    have e2 : runaway.B = 3 := rfl
    rw [e1, e2]
    push_cast
    field_simp
    norm_num

end Verif
