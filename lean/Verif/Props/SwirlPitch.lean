import Verif.Props.PitchCurve

/-!
# A rotor with wake rotation (C114)

An example for the claims on the thrust in attached flow: a rotor with wake rotation whose stations are solvable and drive it.
-/

open Real

namespace Verif

/-! ## An example -/

/-- `featherRotor` with wake rotation and the chord multiplied by `w`. -/
noncomputable def swirlRotor (w : ℝ) : Rotor ℝ :=
  { featherRotor with chord := fun i => w * (π * (6 + i) / 12), opts := ⟨true, false, false, true⟩ }

theorem swirlRotor_straight (w : ℝ) : StraightRotor (swirlRotor w) :=
  let G := featherRotor_straight
  ⟨G.n, G.hub, G.first, G.inc, G.last, G.curve, G.curveTip, G.sweep, G.sweepTip, G.cone, G.radius, ⟨G.axial.1, G.axial.2, G.axial.3⟩⟩

theorem swirlRotor_polar (w U Omega pitch az : ℝ) (i : ℕ) (p : ℝ) :
    stationPolar (swirlRotor w) U Omega pitch az i p = (1 + sin (p - pitch * (π / 180)), 0) := by
  simp [stationPolar, swirlRotor, featherRotor, annulusRotor]

private theorem swirl_loss (w : ℝ) (i : ℕ) (p : ℝ) :
    lossSpec (swirlRotor w).opts (swirlRotor w).B ((swirlRotor w).r i) (swirlRotor w).Rhub (swirlRotor w).Rtip p = 1 := by
  simp [lossSpec, swirlRotor]

private theorem swirl_force (w : ℝ) (i : ℕ) : (swirlRotor w).B * (swirlRotor w).chord i / (2 * π * (swirlRotor w).r i) / 4 = w / 32 := by
  have hr : (0 : ℝ) < 6 + i := by positivity
  have := pi_ne_zero
  simp only [swirlRotor, featherRotor, annulusRotor, demoRotor]
  push_cast
  field_simp
  ring

private theorem swirl_attached (w : ℝ) {pitch : ℝ} (hp : pitch ∈ Set.Icc (0 : ℝ) 10) {i : ℕ} (hi : i < (swirlRotor w).n) :
    AttachedFlow (swirlRotor w).opts (swirlRotor w).B ((swirlRotor w).r i) (swirlRotor w).Rhub (swirlRotor w).Rtip
      (fun p => 1 + sin (p - pitch * (π / 180))) fun _ => 0 := by
  have hpi := pi_gt_three
  have h0 := mul_nonneg hp.1 (show (0 : ℝ) ≤ π / 180 by positivity)
  have h1 := mul_le_mul_of_nonneg_right hp.2 (show (0 : ℝ) ≤ π / 180 by positivity)
  have hB : 0 < (swirlRotor w).B := by simp [swirlRotor, featherRotor, annulusRotor, demoRotor]
  have hr := (swirlRotor_straight w).range hi
  refine attachedFlow_of_constant_drag hB (swirlRotor_straight w).hub hr.1 hr.2 (fun a b c => ?_) fun _ => ⟨0, le_rfl, fun _ _ _ => rfl⟩
  have := sin_le_sin_of_le_of_le_pi_div_two (by linarith) (by linarith) (sub_le_sub_right b (pitch * (π / 180)))
  linarith

theorem swirlRotor_regular {w : ℝ} (hw : 0 < w) (U Omega pitch az : ℝ) {i : ℕ} {p : ℝ} (h0 : 0 < p) (h1 : p ≤ π / 2) :
    RegularAngle (swirlRotor w) U Omega pitch az i p := by
  have hc : 0 ≤ cos p := cos_nonneg_of_mem_Icc ⟨by linarith [pi_pos], h1⟩
  have hl := neg_one_le_sin (p - pitch * (π / 180))
  have hl1 : 0 ≤ 1 + sin (p - pitch * (π / 180)) := by linarith
  unfold RegularAngle
  rw [swirlRotor_polar, swirl_loss]
  refine regularK_lossless (lt_of_lt_of_le (by norm_num) (show 0 ≤ _ from ?_))
  unfold kSpec cnSpec
  rw [swirl_loss]
  simp only [swirlRotor, featherRotor, annulusRotor, demoRotor, if_true, zero_mul, add_zero]
  positivity

theorem swirlRotor_low {w : ℝ} (hw : 0 < w) (hw2 : w ≤ 2) {pitch : ℝ} {i : ℕ} (hi : i < (swirlRotor w).n) :
    stationResidual (swirlRotor w) 6 (30 / π) pitch 0 i (1 / 1000000) ≤ 0 := by
  have hpi := pi_gt_three
  have hi2 : i < 2 := hi
  have hir : (i : ℝ) ≤ 1 := by exact_mod_cast (by omega : i ≤ 1)
  have hi0 : (0 : ℝ) ≤ i := by positivity
  have hB : 0 < (swirlRotor w).B := by simp [swirlRotor, featherRotor, annulusRotor, demoRotor]
  have hr := (swirlRotor_straight w).range hi
  have hreg := swirlRotor_regular hw 6 (30 / π) pitch 0 (i := i) (p := 1 / 1000000) (by norm_num) (by linarith)
  unfold RegularAngle at hreg
  rw [stationResidual_const rfl (.inr fun _ _ _ => rfl)]
  have hV : rotorWind (swirlRotor w) 6 (30 / π) (0 * (π / 180)) i = ((6 : ℝ), 6 + (i : ℝ)) := by
    rw [(swirlRotor_straight w).wind _ _ _ hi]
    simp [swirlRotor, featherRotor, annulusRotor, demoRotor]
  rw [hV, residual_side (cl := fun p => (stationPolar (swirlRotor w) 6 (30 / π) pitch 0 i p).1)
    (cd := fun p => (stationPolar (swirlRotor w) 6 (30 / π) pitch 0 i p).2) hB (swirlRotor_straight w).hub hr.1 hr.2 (by positivity) (by norm_num)
    (by linarith) hreg]
  have c1 : 3 / 4 ≤ cos (1 / 1000000) := by
    have := one_sub_sq_div_two_le_cos (x := 1 / 1000000)
    norm_num at this ⊢
    linarith
  have c2 := cos_le_one (1 / 1000000)
  refine mul_nonpos_of_nonneg_of_nonpos (by linarith) ?_
  unfold sectionSide sectionWake sectionSwirl usedDrag
  simp only [swirl_loss, swirl_force, swirlRotor_polar]
  have hwr : (swirlRotor w).opts.wakeRot = true := rfl
  rw [hwr, if_pos rfl]
  have hl := sin_le_one (1 / 1000000 - pitch * (π / 180))
  have hl0 := neg_one_le_sin (1 / 1000000 - pitch * (π / 180))
  have hl2 : 1 + sin (1 / 1000000 - pitch * (π / 180)) ≤ 2 := by linarith
  have hl1 : 0 ≤ 1 + sin (1 / 1000000 - pitch * (π / 180)) := by linarith
  generalize 1 + sin (1 / 1000000 - pitch * (π / 180)) = l at *
  have hx : 6 / 7 ≤ 6 / (6 + (i : ℝ)) := div_le_div₀ (by linarith) le_rfl (by linarith) (by linarith)
  have hx1 : 6 / (6 + (i : ℝ)) ≤ 1 := by rw [div_le_one (by linarith)]; linarith
  generalize 6 / (6 + (i : ℝ)) = x at *
  have s1 : sin (1 / 1000000) ≤ 1 / 1000000 := sin_le (by norm_num)
  have s0 : 0 < sin (1 / 1000000) := sin_pos_of_pos_of_lt_pi (by norm_num) (by linarith)
  simp only [ite_self, zero_mul, add_zero, zero_div, sub_zero, one_mul, forceK, tan_eq_sin_div_cos]
  generalize sin (1 / 1000000) = S at *
  generalize cos (1 / 1000000) = C at *
  have hC : 0 < C := by linarith
  have hwl : w * l ≤ 4 := by nlinarith
  have hwl0 : 0 ≤ w * l := by positivity
  have hk : 0 ≤ w / 32 * l * C / S ^ 2 := by positivity
  have hw1 := wakeOf_one_le hk
  have h3 : S / C * √(2 * (w / 32 * l * C / S ^ 2)) ≤ 3 / 5 := by
    have e3 : S / C * √(2 * (w / 32 * l * C / S ^ 2)) = √(w * l / (16 * C)) := by
      have hSC : 0 ≤ S / C := by positivity
      rw [← Real.sqrt_sq hSC, ← Real.sqrt_mul (sq_nonneg _)]
      congr 1
      field_simp
      ring
    rw [e3, Real.sqrt_le_left (by norm_num), div_le_iff₀ (by linarith)]
    linarith
  have h4 := mul_le_mul_of_nonneg_left hw1 (show 0 ≤ S / C by positivity)
  have h5 : S / C ≤ 1 / 1000 := by rw [div_le_iff₀ hC]; linarith
  have h6 : w / 32 * (l / C) ≤ 1 / 6 := by
    rw [show w / 32 * (l / C) = w * l / (32 * C) by ring, div_le_iff₀ (by linarith)]
    linarith
  have h7 : x * (w / 32 * (l / C)) ≤ x * (1 / 6) := mul_le_mul_of_nonneg_left h6 (by linarith)
  linarith

theorem swirlRotor_solvable {w : ℝ} (hw : 0 < w) (hw2 : w ≤ 2) {pitch : ℝ} (hp : pitch ∈ Set.Icc (0 : ℝ) 10) {i : ℕ} (hi : i < (swirlRotor w).n) :
    Solvable (swirlRotor w) 6 (30 / π) pitch 0 i (1 / 1000000) := by
  have hpi := pi_gt_three
  have G := swirlRotor_straight w
  have hV := G.wind 6 (30 / π) (0 * (π / 180)) hi
  have hc := G.cos_pos
  have hr := G.range hi
  have hri : 0 < (swirlRotor w).r i := G.hub.trans hr.1
  have hB : 0 < (swirlRotor w).B := by simp [swirlRotor, featherRotor, annulusRotor, demoRotor]
  have hpol := fun p => swirlRotor_polar w 6 (30 / π) pitch 0 i p
  refine ⟨⟨hB, G.hub, hr.1, hr.2, by simp only [swirlRotor]; positivity, by rw [hV]; positivity, by rw [hV]; positivity, ?_⟩,
    fun p h => (swirlRotor_regular hw 6 (30 / π) pitch 0 (lt_of_lt_of_le (by norm_num) h.1) h.2).2, ⟨le_rfl, by linarith⟩,
    by rw [hpol]; linarith [neg_one_le_sin (1 / 1000000 - pitch * (π / 180))], by simp only [funext hpol]; fun_prop, swirlRotor_low hw hw2 hi⟩
  simp only [hpol]
  exact swirl_attached w hp hi

/-- Its stations drive it. -/
theorem swirlRotor_drives {w : ℝ} (hw : 0 < w) (hw2 : w ≤ 2) {pitch : ℝ} (hp : pitch ∈ Set.Icc (0 : ℝ) 10) (az : ℝ) {R' : Rotor ℝ} {L : LoadsOut ℝ}
    (h : distributedAeroLoads someRoot (swirlRotor w) 6 (30 / π) pitch az = (R', .ok L)) {i : ℕ} {s : Station ℝ} (hs : L.stations[i]? = some s) :
    SolvedWithLift (swirlRotor w) 6 (30 / π) pitch az i s ∧ 0 ≤ s.loads.Tp ∧ s.loads.cl = 1 + sin (s.phi - pitch * (π / 180)) := by
  have hpi := pi_gt_three
  have hO : 30 / π ≠ 0 := by positivity
  have hi := (loads_station h hs).1
  have G := swirlRotor_straight w
  have S := (attached_solved someRoot_crossing rfl (.inr fun _ _ _ => rfl) hO
    (G.solvable rfl hi (.inr fun _ _ _ => rfl) (swirlRotor_solvable hw hw2 hp hi) az) h hs).1
  have hc := G.cos_pos
  have hri : 0 < (swirlRotor w).r i := G.hub.trans (G.range hi).1
  obtain ⟨f1, f2, -⟩ := station_facts (R := swirlRotor w) rfl (.inr fun _ _ _ => rfl) h hO hs (G.wind 6 (30 / π) _ hi) (by positivity) (by positivity)
  rw [swirlRotor_polar] at f1 f2
  simp only at f1 f2
  refine ⟨S, ?_, f1⟩
  obtain ⟨a1, -, a3, -⟩ := distributedAeroLoads_forces someRoot _ R' _ _ _ _ L h i s hs
  have hsin : 0 < sin s.phi := sin_pos_of_pos_of_lt_pi S.angle.1 (by linarith [S.angle.2])
  have hl := S.lift
  have hch : 0 < (swirlRotor w).chord i := by simp only [swirlRotor]; positivity
  have hrho : 0 < (swirlRotor w).rho := by norm_num [swirlRotor, featherRotor, annulusRotor, demoRotor]
  rw [a3, a1, f2, zero_mul, sub_zero]
  positivity

theorem swirlRotor_rises (w Re : ℝ) (i : ℕ) : RisingStation (swirlRotor w) Re i 0 10 :=
  ⟨(featherRotor_rises Re i).lift, (featherRotor_rises Re i).drag⟩

/-- The hypotheses of `evaluate_feathers_solvable` are met with wake rotation on: pitching from 0° to 10° lowers thrust and root moment. -/
example : ∃ o x x', (evaluate someRoot (swirlRotor 1) [⟨6, 30 / π, 0⟩, ⟨6, 30 / π, 10⟩] false).2 = .ok o ∧ o.conds = [x, x'] ∧
    (swirlRotor 1).opts.wakeRot = true ∧ x'.acc.T.val < x.acc.T.val ∧ x'.acc.Mb.val < x.acc.Mb.val := by
  have hpi := pi_gt_three
  have hO : 30 / π ≠ 0 := by positivity
  obtain ⟨o, ho⟩ := evaluate_conditions_ok someRoot (swirlRotor 1) [⟨6, 30 / π, 0⟩, ⟨6, 30 / π, 10⟩] false (by simp) fun c hc => by
    have hc' : c.Omega = 30 / π := by simp only [List.mem_cons, List.not_mem_nil, or_false] at hc; rcases hc with rfl | rfl <;> rfl
    obtain ⟨o, x, h, -⟩ := evaluate_total someRoot_onlyValueError (swirlRotor 1) c false (by simp [swirlRotor, featherRotor, annulusRotor, demoRotor]) rfl
      (by rw [hc']; exact hO) (by simp [swirlRotor, featherRotor, annulusRotor, demoRotor])
    exact ⟨o, h⟩
  obtain ⟨x, x', hx⟩ := List.length_eq_two.mp (evaluate_length ho)
  obtain ⟨c1, c2⟩ := evaluate_feathers_solvable someRoot someRoot_exact someRoot_crossing (swirlRotor 1) _ o false ho 0 1 _ _ x x' rfl (by rw [hx]; rfl) rfl
    (by rw [hx]; rfl) (swirlRotor_straight 1) rfl (fun _ _ => .inr fun _ _ _ => rfl) (by simp [swirlRotor, featherRotor, annulusRotor, demoRotor])
    (by norm_num [swirlRotor, featherRotor, annulusRotor, demoRotor]) rfl rfl hO rfl (by norm_num) (fun i _ => swirlRotor_rises 1 _ i)
    (fun _ => 1 / 1000000) (fun _ => 1 / 1000000) (fun _ hi => swirlRotor_solvable one_pos (by norm_num) ⟨le_rfl, by norm_num⟩ hi)
    (fun _ hi => swirlRotor_solvable one_pos (by norm_num) ⟨by norm_num, le_rfl⟩ hi)
    fun _ k _ L hL i s hs => (swirlRotor_drives one_pos (by norm_num) ⟨by norm_num, le_rfl⟩ _ (Prod.ext rfl hL) hs).2.1
  exact ⟨o, x, x', ho, hx, rfl, c1, c2⟩

example : ∃ T M : ℝ → ℝ, (∀ pitch, ∃ o x, (evaluate someRoot (swirlRotor 1) [⟨6, 30 / π, pitch⟩] false).2 = .ok o ∧ o.conds = [x] ∧
      x.acc.T.val = T pitch ∧ x.acc.Mb.val = M pitch) ∧
    ∀ f ∈ [T, M], ContinuousOn f (Set.Icc 0 10) ∧ StrictAntiOn f (Set.Icc 0 10) :=
  pitch_curve someRoot someRoot_exact someRoot_crossing someRoot_onlyValueError (swirlRotor 1) (swirlRotor_straight 1) rfl rfl
    (by simp [swirlRotor, featherRotor, annulusRotor, demoRotor]) (fun _ _ => .inr fun _ _ _ => rfl)
    (fun i _ => by simp only [swirlRotor, featherRotor, annulusRotor]; fun_prop) (by simp [swirlRotor, featherRotor, annulusRotor, demoRotor])
    (by norm_num [swirlRotor, featherRotor, annulusRotor, demoRotor]) (by norm_num [swirlRotor, featherRotor, annulusRotor, demoRotor]) rfl
    (fun k _ i hi => by
      have h1 : (i : ℝ) ≤ 1 := by exact_mod_cast Nat.lt_succ_iff.mp (show i < 2 from hi)
      have h0 : (0 : ℝ) ≤ i := by positivity
      set z := (k : ℝ) * (360 / (swirlRotor 1).nSector) * (π / 180)
      have c2 := neg_one_le_cos z
      have c1 := cos_le_one z
      refine ⟨by norm_num [swirlRotor, featherRotor, annulusRotor, demoRotor], ?_⟩
      simp only [relHeight, swirlRotor, featherRotor, annulusRotor, demoRotor, cos_zero, sin_zero]
      rw [show 1 + ((0 * sin z + ((6 + (i : ℝ)) * 1 + 0 * 0) * cos z) * 1 - (0 * 1 - (6 + (i : ℝ)) * 0) * 0) / 90
        = (90 + (6 + (i : ℝ)) * cos z) / 90 by ring]
      refine div_pos ?_ (by norm_num)
      nlinarith)
    (by positivity) (fun i _ => swirlRotor_rises 1 _ i) (fun _ _ => 1 / 1000000)
    (fun _ hp _ hi => swirlRotor_solvable one_pos (by norm_num) hp hi)
    fun _ hp _ k _ L hL i s hs => (swirlRotor_drives one_pos (by norm_num) hp _ (Prod.ext rfl hL) hs).2.1

end Verif
