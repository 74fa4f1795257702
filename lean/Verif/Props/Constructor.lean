import Verif.Lemmas.Constructor

/-!
# The constructor (C27, C28, C29)
-/

namespace Verif

/-! ## C27 -/

/-- **C27** For increasing stations between hub and tip, the stored stations are increasing and strictly inside, only end
stations that coincide with hub or tip are changed, and these stay in the half of their segment next to hub or tip. -/
theorem build_stations (x : CCArgs ℝ) (h : Increasing x.n x.r) (hhub : x.Rhub ≤ x.r 0)
    (htip : x.r (x.n - 1) ≤ x.Rtip) :
    ∃ R, x.build = .ok R ∧ R.n = x.n ∧ R.Rhub = x.Rhub ∧ R.Rtip = x.Rtip ∧
      (∀ i j, i < j → j < R.n → R.r i < R.r j) ∧
      (∀ i < R.n, R.Rhub < R.r i ∧ R.r i < R.Rtip) ∧
      (∀ i, 0 < i → i < x.n - 1 → R.r i = x.r i) ∧
      (x.Rhub ≠ x.r 0 → R.r 0 = x.r 0) ∧
      (x.Rtip ≠ x.r (x.n - 1) → R.r (x.n - 1) = x.r (x.n - 1)) ∧
      (x.Rhub = x.r 0 → R.r 0 ≤ (x.r 0 + x.r 1) / 2) ∧
      (x.Rtip = x.r (x.n - 1) → (x.r (x.n - 2) + x.r (x.n - 1)) / 2 ≤ R.r (x.n - 1)) := by
  obtain ⟨R, h1, h2, h3, h4, h5, -⟩ := build_arrays x h
  obtain ⟨a1, a2⟩ := hubFrac_bounds h
  obtain ⟨b1, b2⟩ := tipFrac_bounds h
  obtain ⟨hn, hr⟩ := h
  have h01 : x.r 0 < x.r 1 := hr 0 1 (by omega) (by omega)
  have hml : x.r (x.n - 2) < x.r (x.n - 1) := hr (x.n - 2) (x.n - 1) (by omega) (by omega)
  -- bounds on the two end stations
  have r0 : x.r 0 ≤ R.r 0 ∧ R.r 0 ≤ (x.r 0 + x.r 1) / 2 ∧ (x.Rhub ≠ x.r 0 → R.r 0 = x.r 0) ∧
      (x.Rhub = x.r 0 → x.r 0 < R.r 0) := by
    rw [h5]
    simp only [show ¬ 0 = x.n - 1 by omega, false_and, if_false, true_and]
    split_ifs with hh
    · refine ⟨by nlinarith, by nlinarith, fun h => absurd hh h, fun _ => by nlinarith⟩
    · exact ⟨le_refl _, by linarith, fun _ => rfl, fun h => absurd h hh⟩
  have rl : R.r (x.n - 1) ≤ x.r (x.n - 1) ∧ (x.r (x.n - 2) + x.r (x.n - 1)) / 2 ≤ R.r (x.n - 1) ∧
      (x.Rtip ≠ x.r (x.n - 1) → R.r (x.n - 1) = x.r (x.n - 1)) ∧
      (x.Rtip = x.r (x.n - 1) → R.r (x.n - 1) < x.r (x.n - 1)) := by
    rw [h5]
    simp only [show ¬ x.n - 1 = 0 by omega, false_and, if_false, true_and]
    split_ifs with hh
    · refine ⟨by nlinarith, by nlinarith, fun h => absurd hh h, fun _ => by nlinarith⟩
    · exact ⟨le_refl _, by linarith, fun _ => rfl, fun h => absurd h hh⟩
  have ri : ∀ i, 0 < i → i < x.n - 1 → R.r i = x.r i := by
    intro i hi hi'
    rw [h5]
    simp only [show ¬ i = x.n - 1 by omega, show ¬ i = 0 by omega, false_and, if_false]
  have mono : ∀ i j, i < j → j < R.n → R.r i < R.r j := by
    intro i j hij hj
    rw [h2] at hj
    rcases Nat.eq_zero_or_pos i with rfl | hi
    · rcases Nat.lt_or_eq_of_le (show j ≤ x.n - 1 by omega) with hj' | rfl
      · rw [ri j hij hj']
        have : x.r 1 ≤ x.r j := by
          rcases Nat.lt_or_eq_of_le (show 1 ≤ j by omega) with h | rfl
          · exact (hr 1 j h hj).le
          · exact le_refl _
        linarith [r0.2.1]
      · rcases Nat.lt_or_eq_of_le (show 2 ≤ x.n by omega) with hn2 | hn2
        · have : x.r 1 ≤ x.r (x.n - 2) := by
            rcases Nat.lt_or_eq_of_le (show 1 ≤ x.n - 2 by omega) with h | h
            · exact (hr 1 (x.n - 2) h (by omega)).le
            · rw [← h]
          linarith [r0.2.1, rl.2.1]
        · -- two stations: 1 % and 99 %
          have e1 : hubFrac x.n x.r = 1 / 100 := by
            have hb : x.r 1 - x.r 0 ≠ 0 := by linarith
            simp only [hubFrac, ← hn2, Nat.add_one_sub_one, div_self hb]
            norm_num
          rw [h5]
          simp only [← hn2, show ¬ 0 = 2 - 1 by omega, show ¬ 2 - 1 = 0 by omega, false_and, if_false, true_and]
          rw [← hn2] at b1 e1
          simp only [e1, show 2 - 1 = 1 by omega, show 2 - 2 = 0 by omega]
          split_ifs <;> nlinarith
    · rcases Nat.lt_or_eq_of_le (show j ≤ x.n - 1 by omega) with hj' | rfl
      · rw [ri i hi (by omega), ri j (by omega) hj']
        exact hr i j hij hj
      · rw [ri i hi (by omega)]
        have : x.r i ≤ x.r (x.n - 2) := by
          rcases Nat.lt_or_eq_of_le (show i ≤ x.n - 2 by omega) with h | h
          · exact (hr i (x.n - 2) h (by omega)).le
          · rw [h]
        linarith [rl.2.1]
  have lo : x.Rhub < R.r 0 := by
    by_cases hh : x.Rhub = x.r 0
    · rw [hh]; exact r0.2.2.2 hh
    · rw [r0.2.2.1 hh]; exact lt_of_le_of_ne hhub hh
  have hi : R.r (x.n - 1) < x.Rtip := by
    by_cases hh : x.Rtip = x.r (x.n - 1)
    · rw [hh]; exact rl.2.2.2 hh
    · rw [rl.2.2.1 hh]; exact lt_of_le_of_ne htip (Ne.symm hh)
  refine ⟨R, h1, h2, h3, h4, mono, fun i hi' => ?_, ri, r0.2.2.1, rl.2.2.1, fun _ => r0.2.1, fun _ => rl.2.1⟩
  rw [h3, h4]
  constructor
  · rcases Nat.eq_zero_or_pos i with rfl | h
    · exact lo
    · exact lo.trans (mono 0 i h hi')
  · rcases Nat.lt_or_eq_of_le (show i ≤ x.n - 1 by omega) with h | rfl
    · exact (mono i (x.n - 1) h (by omega)).trans hi
    · exact hi

/-- Sample arguments: stations at hub, middle and tip, with precurve. -/
noncomputable def demoArgs : CCArgs ℝ where
  n := 3
  r i := 10 + 20 * i
  chord _ := 1
  theta _ := 0
  af _ := ⟨fun _ _ => (0, 0), fun _ _ => 0, fun _ _ => 0, fun _ _ => 0, fun _ _ => 0⟩
  Rhub := 10
  Rtip := 50
  B := 3
  rho := 1
  mu := 1
  precone := 0
  tilt := 0
  yaw := 0
  shearExp := 0
  hubHt := 90
  nSector := 8
  precurve := some fun i => i
  precurveTip := 2
  presweep := none
  presweepTip := 7
  tiploss := true
  hubloss := true
  wakerotation := true
  usecd := true
  iterRe := 1
  derivatives := false

theorem demoArgs_increasing : Increasing demoArgs.n demoArgs.r := by
  refine ⟨by simp [demoArgs], fun i j hij _ => ?_⟩
  simp only [demoArgs]
  have : (i : ℝ) < j := by exact_mod_cast hij
  linarith

example : ∃ R, demoArgs.build = .ok R ∧ (∀ i < 3, 10 < R.r i ∧ R.r i < 50) := by
  obtain ⟨R, h1, h2, h3, h4, _, h6, _⟩ := build_stations demoArgs demoArgs_increasing
    (by norm_num [demoArgs]) (by norm_num [demoArgs])
  rw [h2, h3, h4] at h6
  exact ⟨R, h1, h6⟩

/-! ## C28 -/

section generic
variable {α : Type} [Num α]

/-- **C28** A constructor call with at least one station succeeds. -/
theorem build_total (x : CCArgs α) (hn : x.n ≠ 0) : ∃ R, x.build = .ok R := by
  unfold CCArgs.build
  simp only [hn, if_false]
  obtain ⟨y1, h1⟩ := npInterp_total x.n hn (fun i => ((x.r i - x.r 0) / (x.r (x.n - 1) - x.r 0), x.r i))
    (npMinimum (Num.nat 1 / Num.nat 100) (if x.n = 1 then (x.r 0 - x.r 0) / (x.r (x.n - 1) - x.r 0)
      else ((x.r 0 - x.r 0) / (x.r (x.n - 1) - x.r 0) + (x.r 1 - x.r 0) / (x.r (x.n - 1) - x.r 0)) / Num.nat 2))
  have h2 := fun f : ℕ → α => npInterp_total x.n hn (fun i => ((x.r i - x.r 0) / (x.r (x.n - 1) - x.r 0), f i))
    (npMaximum (Num.nat 99 / Num.nat 100) (if x.n = 1 then (x.r 0 - x.r 0) / (x.r (x.n - 1) - x.r 0)
      else ((x.r (x.n - 2) - x.r 0) / (x.r (x.n - 1) - x.r 0)
        + (x.r (x.n - 1) - x.r 0) / (x.r (x.n - 1) - x.r 0)) / Num.nat 2))
  obtain ⟨y2, h2a⟩ := h2 x.r
  obtain ⟨y3, h2b⟩ := h2 (x.precurve.getD fun _ => 0)
  obtain ⟨y4, h2c⟩ := h2 (x.presweep.getD fun _ => 0)
  simp only [h1, h2a, h2b, h2c, bind, Except.bind, pure, Except.pure]
  exact ⟨_, rfl⟩

/-- **C28** An omitted precurve is a zero precurve with zero tip offset, whatever tip offset was given. -/
theorem build_no_precurve (x : CCArgs α) (h : x.precurve = none) :
    x.build = { x with precurve := some fun _ => 0, precurveTip := 0 }.build := by
  simp only [CCArgs.build, h, Option.getD_none, Option.getD_some, Option.isNone_none, Option.isNone_some, if_true,
    Bool.false_eq_true, if_false]

/-- **C28** The same for presweep. -/
theorem build_no_presweep (x : CCArgs α) (h : x.presweep = none) :
    x.build = { x with presweep := some fun _ => 0, presweepTip := 0 }.build := by
  simp only [CCArgs.build, h, Option.getD_none, Option.getD_some, Option.isNone_none, Option.isNone_some, if_true,
    Bool.false_eq_true, if_false]

/-- What a successful constructor call stores in the attributes that are not arrays over the blade. -/
theorem build_fields {x : CCArgs α} {R : Rotor α} (h : x.build = .ok R) :
    R.nSector = (if deg2rad x.tilt == 0 && deg2rad x.yaw == 0 && x.shearExp == 0 then 1 else max 4 x.nSector) ∧
    R.precurveTip = (if x.precurve.isNone then 0 else x.precurveTip) ∧
    R.precone = deg2rad x.precone ∧
    R.rotorR = x.Rtip * Num.cos R.precone + R.precurveTip * Num.sin R.precone ∧
    R.chord = x.chord ∧ (R.theta = fun i => deg2rad (x.theta i)) ∧ R.tilt = deg2rad x.tilt ∧ R.yaw = deg2rad x.yaw ∧
    R.opts = ⟨x.usecd, x.hubloss, x.tiploss, x.wakerotation⟩ ∧ R.inv = none := by
  unfold CCArgs.build at h
  by_cases hn : x.n = 0
  · simp [hn, throw, throwThe, MonadExceptOf.throw, bind, Except.bind] at h
  · simp only [hn, if_false, bind, Except.bind, pure, Except.pure] at h
    split at h
    · exact absurd h (by simp)
    · split at h
      · exact absurd h (by simp)
      · split at h
        · exact absurd h (by simp)
        · split at h
          · exact absurd h (by simp)
          · simp only [Except.ok.injEq] at h
            subst h
            exact ⟨rfl, rfl, rfl, rfl, rfl, rfl, rfl, rfl, rfl, rfl⟩

end generic

/-- **C28** One sector exactly for zero tilt, yaw and shear; otherwise at least four and at least the request. -/
theorem build_nSector (x : CCArgs ℝ) (R : Rotor ℝ) (h : x.build = .ok R) :
    (R.nSector = 1 ↔ x.tilt = 0 ∧ x.yaw = 0 ∧ x.shearExp = 0) ∧
    (¬ (x.tilt = 0 ∧ x.yaw = 0 ∧ x.shearExp = 0) → 4 ≤ R.nSector ∧ x.nSector ≤ R.nSector ∧
      (R.nSector = 4 ∨ R.nSector = x.nSector)) := by
  have h1 := (build_fields h).1
  have hd : ∀ y : ℝ, deg2rad y = 0 ↔ y = 0 := by
    intro y
    simp only [num_real, mul_eq_zero, div_eq_zero_iff, Real.pi_ne_zero, OfNat.ofNat_ne_zero, or_false]
  simp only [num_real, Bool.and_eq_true, decide_eq_true_eq] at h1
  have hd' : ∀ y : ℝ, y * (Real.pi / 180) = 0 ↔ y = 0 := by
    intro y; have := hd y; simpa only [num_real] using this
  simp only [hd', and_assoc] at h1
  split_ifs at h1 with hc
  · exact ⟨⟨fun _ => hc, fun _ => h1⟩, fun h => absurd hc h⟩
  · refine ⟨⟨fun h => ?_, fun h => absurd h hc⟩, fun _ => ?_⟩
    · omega
    · omega

/-- **C28** The rotor radius, for a precone angle in degrees. -/
theorem build_rotorR (x : CCArgs ℝ) (R : Rotor ℝ) (h : x.build = .ok R) :
    R.rotorR = x.Rtip * Real.cos (x.precone * Real.pi / 180)
      + (if x.precurve.isSome then x.precurveTip else 0) * Real.sin (x.precone * Real.pi / 180) := by
  obtain ⟨-, h2, h3, h4, -⟩ := build_fields h
  rw [h4, h3, h2]
  simp only [num_real, mul_div_assoc]
  cases x.precurve <;> simp

example : ∃ R, demoArgs.build = .ok R ∧ R.nSector = 1 ∧ R.rotorR = 50 := by
  obtain ⟨R, h⟩ := build_total demoArgs (by simp [demoArgs])
  refine ⟨R, h, (build_nSector _ R h).1.mpr (by simp [demoArgs]), ?_⟩
  rw [build_rotorR _ R h]
  simp [demoArgs]

example : ∃ R, { demoArgs with tilt := 5 }.build = .ok R ∧ 4 ≤ R.nSector ∧ 8 ≤ R.nSector := by
  obtain ⟨R, h⟩ := build_total { demoArgs with tilt := 5 } (by simp [demoArgs])
  have := (build_nSector _ R h).2 (by simp)
  exact ⟨R, h, this.1, this.2.1⟩

/-! ## C29 -/

/-- A point of the polygonal blade axis with vertices `(r i, c i, s i)`. -/
def OnAxis (n : ℕ) (r c s : ℕ → ℝ) (p : ℝ × ℝ × ℝ) : Prop :=
  ∃ k t, k + 1 < n ∧ 0 ≤ t ∧ t ≤ 1 ∧
    p = (r k + t * (r (k + 1) - r k), c k + t * (c (k + 1) - c k), s k + t * (s (k + 1) - s k))

/-- **C29** (partial) When the last station coincides with the given tip in `r`, `precurve` and `presweep`, the moved
station lies on the axis; when it differs in all three, no station but the first is moved. Missing: a last station that
coincides with the tip in some of the coordinates only, see `build_axis_false`. -/
theorem build_axis_partial (x : CCArgs ℝ) (h : Increasing x.n x.r) (c s : ℕ → ℝ) (hc : x.precurve = some c)
    (hs : x.presweep = some s) :
    ∃ R, x.build = .ok R ∧
      (x.Rtip = x.r (x.n - 1) → x.precurveTip = c (x.n - 1) → x.presweepTip = s (x.n - 1) →
        OnAxis x.n x.r c s (R.r (x.n - 1), R.precurve (x.n - 1), R.presweep (x.n - 1))) ∧
      (x.Rtip ≠ x.r (x.n - 1) → x.precurveTip ≠ c (x.n - 1) → x.presweepTip ≠ s (x.n - 1) →
        R.precurve = c ∧ R.presweep = s ∧ ∀ i, 0 < i → R.r i = x.r i) := by
  obtain ⟨R, h1, -, -, -, h5, h6, h7, -⟩ := build_arrays x h
  obtain ⟨b1, b2⟩ := tipFrac_bounds h
  obtain ⟨-, h6⟩ := h6 c hc
  obtain ⟨-, h7⟩ := h7 s hs
  refine ⟨R, h1, fun e1 e2 e3 => ?_, fun e1 e2 e3 => ?_⟩
  · refine ⟨x.n - 2, tipFrac x.n x.r, by have := h.1; omega, by linarith, b2.le, ?_⟩
    rw [h5, h6, h7]
    have : x.n - 2 + 1 = x.n - 1 := by have := h.1; omega
    simp only [e1, e2, e3, and_self, if_true, this]
  · rw [h5, h6, h7]
    refine ⟨?_, ?_, fun i hi => ?_⟩
    · funext i; simp [e2]
    · funext i; simp [e3]
    · simp [e1, show i ≠ 0 by omega]

example : ∃ R, { demoArgs with presweep := some fun _ => 7 }.build = .ok R ∧
    OnAxis 3 demoArgs.r (fun i => i) (fun _ => 7) (R.r 2, R.precurve 2, R.presweep 2) := by
  obtain ⟨R, h1, h2, -⟩ := build_axis_partial { demoArgs with presweep := some fun _ => 7 } demoArgs_increasing
    (fun i => i) (fun _ => 7) rfl rfl
  exact ⟨R, h1, h2 (by norm_num [demoArgs]) (by norm_num [demoArgs]) rfl⟩

/-- **C29** fails: with the tip 10 m beyond the last station but the same tip offset, the constructor moves the precurve
of the last station and not its radius, and the station leaves the blade axis. -/
theorem build_axis_false :
    ∃ (x : CCArgs ℝ) (R : Rotor ℝ) (c s : ℕ → ℝ), Increasing x.n x.r ∧ x.precurve = some c ∧ x.presweep = some s ∧
      x.r (x.n - 1) < x.Rtip ∧ x.build = .ok R ∧
      ¬ OnAxis x.n x.r c s (R.r (x.n - 1), R.precurve (x.n - 1), R.presweep (x.n - 1)) := by
  obtain ⟨R, h1, -, -, -, h5, h6, h7, -⟩ := build_arrays
    { demoArgs with Rtip := 60, presweep := some fun _ => 0 } demoArgs_increasing
  refine ⟨{ demoArgs with Rtip := 60, presweep := some fun _ => 0 }, R, _, _, demoArgs_increasing, rfl, rfl,
    by norm_num [demoArgs], h1, ?_⟩
  obtain ⟨-, h6⟩ := h6 _ rfl
  rintro ⟨k, t, hk, ht0, ht1, hp⟩
  obtain ⟨b1, b2⟩ := tipFrac_bounds demoArgs_increasing
  simp only [Prod.mk.injEq] at hp
  obtain ⟨p1, p2, -⟩ := hp
  rw [h5] at p1
  rw [h6] at p2
  simp only [demoArgs] at p1 p2 hk b1 b2
  norm_num at p1 p2
  have hk' : k = 0 ∨ k = 1 := by omega
  simp only [demoArgs] at *
  rcases hk' with rfl | rfl
  · norm_num at p1 p2; nlinarith
  · norm_num at p1 p2; nlinarith

end Verif
