import Verif.Props.AttachedContinuity

/-! # C122: in attached flow the angle is found -/

open Real Filter Topology

namespace Verif

/-! ## Specification -/

/-- Buhl's formula is not replaced near its removable singularity. -/
def GuardFree (F k : ℝ) : Prop := 2 / 3 < k → 1 / 1000000 ≤ |2 * F * k - (25 / 9 - 2 * F)|

/-- The same at an inflow angle of a station. -/
def GuardFreeAngle (R : Rotor ℝ) (Uinf Omega pitch az : ℝ) (i : ℕ) (phi : ℝ) : Prop :=
  GuardFree (lossSpec R.opts R.B (R.r i) R.Rhub R.Rtip phi) (kSpec R.opts R.B (R.r i) (R.chord i) R.Rhub R.Rtip phi
    (stationPolar R Uinf Omega pitch az i phi).1 (stationPolar R Uinf Omega pitch az i phi).2)

/-- What a bracketing root finder guarantees in exact arithmetic: a function negative up to its only zero and positive
afterwards is solved.  Unlike `FindsRoots` this does not ask for continuity, which the residual lacks at 90°. -/
def FindsCrossing (bq : RootFinder ℝ) : Prop :=
  ∀ (f : ℝ → ℝ) (a b p : ℝ), p ∈ Set.Icc a b → (∀ x, a ≤ x → x < p → f x < 0) → f p = 0 → (∀ x, p < x → x ≤ b → 0 < f x) →
    bq f a b = .ok p

theorem someRoot_crossing : FindsCrossing someRoot := by
  intro f a b p hp hl h0 hu
  have hex : ∃ p, f p = 0 ∧ p ∈ Set.Icc a b := ⟨p, h0, hp⟩
  unfold someRoot
  rw [dif_pos hex]
  obtain ⟨z, hz⟩ := hex.choose_spec
  rcases lt_trichotomy hex.choose p with h | h | h
  · linarith [hl _ hz.1 h]
  · rw [h]
  · linarith [hu _ h hz.2]

/-! ## The section -/

section
variable {o : BemOpts} {B : ℕ} {r chord Rhub Rtip Vx Vy : ℝ} {cl cd : ℝ → ℝ} {p phi : ℝ}

private theorem k_nonneg (hB : 0 < B) (hRhub : 0 < Rhub) (h1 : Rhub < r) (h2 : r < Rtip) (hc : 0 < chord)
    (hatt : AttachedFlow o B r Rhub Rtip cl cd) (hp : 0 < p) (hp2 : p ≤ π / 2) (hcl : 0 ≤ cl p) :
    0 ≤ kSpec o B r chord Rhub Rtip p (cl p) (cd p) := by
  have hr : 0 < r := hRhub.trans h1
  have hpi := pi_pos
  have hF := (lossSpec_range o B hB r Rhub Rtip p hRhub h1 h2 hp (by linarith)).1
  have hs : 0 < sin p := sin_pos_of_pos_of_lt_pi hp (by linarith)
  have hco : 0 ≤ cos p := cos_nonneg_of_mem_Icc ⟨by linarith, hp2⟩
  have hd : 0 ≤ (if o.useCd = true then cd p else 0) := by
    split_ifs with hu
    · exact (hatt.drag hu hp le_rfl hp2).1
    · exact le_rfl
  unfold kSpec cnSpec
  positivity

/-- With lift there is no division by zero. -/
theorem regular_of_lift (hB : 0 < B) (hRhub : 0 < Rhub) (h1 : Rhub < r) (h2 : r < Rtip) (hc : 0 < chord)
    (hatt : AttachedFlow o B r Rhub Rtip cl cd) (hp : 0 < p) (hp2 : p ≤ π / 2) (hcl : 0 ≤ cl p)
    (hg : GuardFree (lossSpec o B r Rhub Rtip p) (kSpec o B r chord Rhub Rtip p (cl p) (cd p))) :
    RegularK (lossSpec o B r Rhub Rtip p) (kSpec o B r chord Rhub Rtip p (cl p) (cd p)) :=
  ⟨by linarith [k_nonneg (cd := cd) hB hRhub h1 h2 hc hatt hp hp2 hcl], hg⟩

private theorem tan_le_wake (hB : 0 < B) (hRhub : 0 < Rhub) (h1 : Rhub < r) (h2 : r < Rtip) (hc : 0 < chord)
    (hatt : AttachedFlow o B r Rhub Rtip cl cd) (hp : 0 < p) (hp2 : p < π / 2) (hcl : 0 ≤ cl p) :
    tan p ≤ sectionWake o B r chord Rhub Rtip cl cd p := by
  have hF := lossSpec_range o B hB r Rhub Rtip p hRhub h1 h2 hp (by linarith [pi_pos])
  have hk := k_nonneg (cd := cd) hB hRhub h1 h2 hc hatt hp hp2.le hcl
  rw [kSpec_forceK hB hRhub h1 h2 hp hp2] at hk
  have ht : 0 < tan p := tan_pos_of_pos_of_lt_pi_div_two hp hp2
  unfold sectionWake
  have h : (1 : ℝ) ≤ wakeOf (lossSpec o B r Rhub Rtip p)
      (forceK (lossSpec o B r Rhub Rtip p) (B * chord / (2 * π * r) / 4 * (cl p + usedDrag o cd p * tan p)) p) := by
    calc (1 : ℝ) = wakeOf (lossSpec o B r Rhub Rtip p) 0 := by rw [wakeOf, if_pos (by norm_num)]; norm_num
      _ ≤ _ := wakeOf_mono hF.1 hk
  exact le_mul_of_one_le_right ht.le h

/-- Where `1 + k` vanishes the routine works without axial induction. -/
private theorem residual_singular (hB : 0 < B) (hRhub : 0 < Rhub) (h1 : Rhub < r) (h2 : r < Rtip) (hp : 0 < p) (hp2 : p < π / 2)
    (hk : kSpec o B r chord Rhub Rtip p (cl p) (cd p) = -1) :
    (inductionFactors r chord Rhub Rtip p (cl p) (cd p) B Vx Vy o).fzero
      = cos p * (tan p + Vx / Vy * sectionSwirl o B r chord Rhub Rtip cl cd p - Vx / Vy) := by
  have hc : 0 < cos p := cos_pos_of_mem_Ioo ⟨by linarith [pi_pos], hp2⟩
  obtain ⟨-, -, h⟩ := indOut_eq r chord Rhub Rtip p (cl p) (cd p) B Vx Vy o
  rw [h]
  simp only [bemResidual, if_pos hp]
  rw [hk, axial_momentum hp (by norm_num), ← sectionSwirl_eq hB hRhub h1 h2 hp hp2]
  generalize sectionSwirl _ _ _ _ _ _ _ _ _ = K
  have ht : sin p = cos p * tan p := by rw [tan_eq_sin_div_cos]; field_simp
  rw [ht, div_div_eq_mul_div]
  norm_num
  ring

/-- **C122** The signs of C112 without the exception at `1 + k = 0`. -/
theorem attached_sign_all (hB : 0 < B) (hRhub : 0 < Rhub) (h1 : Rhub < r) (h2 : r < Rtip) (hc : 0 < chord) (hVx : 0 < Vx) (hVy : 0 < Vy)
    (hatt : AttachedFlow o B r Rhub Rtip cl cd) (hphi : phi ∈ Set.Ioo 0 (π / 2))
    (hroot : (inductionFactors r chord Rhub Rtip phi (cl phi) (cd phi) B Vx Vy o).fzero = 0) (hcl : 0 ≤ cl phi)
    (hg : GuardFree (lossSpec o B r Rhub Rtip phi) (kSpec o B r chord Rhub Rtip phi (cl phi) (cd phi))) :
    (∀ p, 0 < p → p < phi → GuardFree (lossSpec o B r Rhub Rtip p) (kSpec o B r chord Rhub Rtip p (cl p) (cd p)) →
      (inductionFactors r chord Rhub Rtip p (cl p) (cd p) B Vx Vy o).fzero < 0) ∧
    (∀ q, phi < q → q ≤ π / 2 → GuardFree (lossSpec o B r Rhub Rtip q) (kSpec o B r chord Rhub Rtip q (cl q) (cd q)) →
      0 < (inductionFactors r chord Rhub Rtip q (cl q) (cd q) B Vx Vy o).fzero) := by
  have hreg := regular_of_lift hB hRhub h1 h2 hc hatt hphi.1 hphi.2.le hcl hg
  obtain ⟨k1, k2⟩ := attached_sign hB hRhub h1 h2 hc hVx hVy hatt hphi hroot hreg hcl
  constructor
  · intro p hp hpp hgp
    by_cases hk : kSpec o B r chord Rhub Rtip p (cl p) (cd p) = -1
    · rw [residual_singular hB hRhub h1 h2 hp (hpp.trans hphi.2) hk]
      have hcp : 0 < cos p := cos_pos_of_mem_Ioo ⟨by linarith [pi_pos], hpp.trans hphi.2⟩
      have e := section_root hB hRhub h1 h2 hVy hphi.1 hphi.2 hreg hroot
      have w := tan_le_wake (chord := chord) (cd := cd) hB hRhub h1 h2 hc hatt hphi.1 hphi.2 hcl
      have t := tan_lt_tan_of_nonneg_of_lt_pi_div_two hp.le hphi.2 hpp
      have s := mul_le_mul_of_nonneg_left (sectionSwirl_mono hB hRhub h1 h2 hc hatt hp hpp.le hphi.2 hcl) (div_pos hVx hVy).le
      exact mul_neg_of_pos_of_neg hcp (by linarith)
    · exact k1 p hp hpp ⟨hk, hgp⟩
  · intro q hq hq2 hgq
    have hclq := hcl.trans (hatt.lift hphi.1 hq.le hq2)
    exact k2 q hq hq2 (regular_of_lift hB hRhub h1 h2 hc hatt (hphi.1.trans hq) hq2 hclq hgq)

private theorem loss_within {D : Set ℝ} (hRhub : 0 < Rhub) (h1 : Rhub < r) (hs : sin p ≠ 0) :
    Tendsto (lossSpec o B r Rhub Rtip) (𝓝[D] p) (𝓝 (lossSpec o B r Rhub Rtip p)) := by
  have hid : Tendsto (fun x : ℝ => x) (𝓝[D] p) (𝓝 p) := tendsto_id.mono_left nhdsWithin_le_nhds
  unfold lossSpec
  refine Tendsto.mul ?_ ?_
  · split_ifs
    · exact prandtl_tendsto_all (hRhub.trans h1).ne' hs tendsto_const_nhds tendsto_const_nhds hid
    · exact tendsto_const_nhds
  · split_ifs
    · exact prandtl_tendsto_all hRhub.ne' hs tendsto_const_nhds tendsto_const_nhds hid
    · exact tendsto_const_nhds

private theorem side_within {D : Set ℝ} (hB : 0 < B) (hRhub : 0 < Rhub) (h1 : Rhub < r) (h2 : r < Rtip) (hp : 0 < p) (hp2 : p < π / 2)
    (tl : ContinuousWithinAt cl D p) (td : ContinuousWithinAt cd D p) :
    ContinuousWithinAt (sectionSide o B r chord Rhub Rtip Vx Vy cl cd) D p := by
  have hpi := pi_pos
  have hs : 0 < sin p := sin_pos_of_pos_of_lt_pi hp (by linarith)
  have hc : 0 < cos p := cos_pos_of_mem_Ioo ⟨by linarith, hp2⟩
  have hF := (lossSpec_range o B hB r Rhub Rtip p hRhub h1 h2 hp (by linarith)).1
  have tF : Tendsto (lossSpec o B r Rhub Rtip) (𝓝[D] p) (𝓝 (lossSpec o B r Rhub Rtip p)) := loss_within hRhub h1 hs.ne'
  have ts : Tendsto sin (𝓝[D] p) (𝓝 (sin p)) := (continuous_sin.tendsto p).mono_left nhdsWithin_le_nhds
  have tc : Tendsto cos (𝓝[D] p) (𝓝 (cos p)) := (continuous_cos.tendsto p).mono_left nhdsWithin_le_nhds
  have tt : Tendsto tan (𝓝[D] p) (𝓝 (tan p)) := (continuousAt_tan.mpr hc.ne').tendsto.mono_left nhdsWithin_le_nhds
  have tu : Tendsto (usedDrag o cd) (𝓝[D] p) (𝓝 (usedDrag o cd p)) := by
    unfold usedDrag
    split_ifs
    · exact td
    · exact tendsto_const_nhds
  unfold ContinuousWithinAt sectionSide
  refine Tendsto.add ?_ (Tendsto.const_mul _ ?_)
  · unfold sectionWake
    refine tt.mul (wakeOf_tendsto hF tF ?_)
    unfold forceK
    exact (((tl.tendsto.add (tu.mul tt)).const_mul _).mul tc).div (tF.mul (ts.pow 2)) (mul_pos hF (pow_pos hs 2)).ne'
  · unfold sectionSwirl
    simp only
    split_ifs
    · exact ((tl.tendsto.div (tF.mul tc) (mul_pos hF hc).ne').sub (tu.div (tF.mul ts) (mul_pos hF hs).ne')).const_mul _
    · exact tendsto_const_nhds

/-- **C122** A section in attached flow with continuous coefficients: if the residual is not positive at an angle with lift, the
equation has a solution between that angle and 90°. -/
theorem attached_solution (hB : 0 < B) (hRhub : 0 < Rhub) (h1 : Rhub < r) (h2 : r < Rtip) (hc : 0 < chord) (hVx : 0 < Vx) (hVy : 0 < Vy)
    (hatt : AttachedFlow o B r Rhub Rtip cl cd) (hp : p ∈ Set.Ioo 0 (π / 2)) (hcl : 0 ≤ cl p)
    (hcont : ContinuousOn cl (Set.Ico p (π / 2))) (hcont' : ContinuousOn cd (Set.Ico p (π / 2)))
    (hg : ∀ q ∈ Set.Ico p (π / 2), GuardFree (lossSpec o B r Rhub Rtip q) (kSpec o B r chord Rhub Rtip q (cl q) (cd q)))
    (hres : (inductionFactors r chord Rhub Rtip p (cl p) (cd p) B Vx Vy o).fzero ≤ 0) :
    ∃ phi ∈ Set.Ico p (π / 2), (inductionFactors r chord Rhub Rtip phi (cl phi) (cd phi) B Vx Vy o).fzero = 0 := by
  have hcos : ∀ {x}, 0 < x → x < π / 2 → 0 < cos x := fun h h' => cos_pos_of_mem_Ioo ⟨by linarith [pi_pos], h'⟩
  have lift : ∀ q ∈ Set.Ico p (π / 2), 0 ≤ cl q := fun q hq => hcl.trans (hatt.lift hp.1 hq.1 hq.2.le)
  have side : ∀ q ∈ Set.Ico p (π / 2), (inductionFactors r chord Rhub Rtip q (cl q) (cd q) B Vx Vy o).fzero
      = cos q * (sectionSide o B r chord Rhub Rtip Vx Vy cl cd q - Vx / Vy) := fun q hq =>
    residual_side hB hRhub h1 h2 hVy (hp.1.trans_le hq.1) hq.2
      (regular_of_lift hB hRhub h1 h2 hc hatt (hp.1.trans_le hq.1) hq.2.le (lift q hq) (hg q hq))
  rw [side p ⟨le_rfl, hp.2⟩] at hres
  have hlow : sectionSide o B r chord Rhub Rtip Vx Vy cl cd p ≤ Vx / Vy := by
    by_contra h
    push Not at h
    have := mul_pos (hcos hp.1 hp.2) (sub_pos.mpr h)
    linarith
  set c := Vx / Vy * (1 - sectionSwirl o B r chord Rhub Rtip cl cd p) with hcdef
  set q := max p (arctan c) with hq
  have hqp : p ≤ q := le_max_left _ _
  have hq2 : q < π / 2 := max_lt hp.2 (arctan_lt_pi_div_two c)
  have hq0 : 0 < q := hp.1.trans_le hqp
  have htan : c ≤ tan q := by
    rw [← tan_arctan c]
    rcases (le_max_right p (arctan c)).eq_or_lt with h | h
    · rw [hq, ← h]
    · exact (tan_lt_tan_of_lt_of_lt_pi_div_two (neg_pi_div_two_lt_arctan c) hq2 h).le
  have hhigh : Vx / Vy ≤ sectionSide o B r chord Rhub Rtip Vx Vy cl cd q := by
    have w := tan_le_wake (chord := chord) (cd := cd) hB hRhub h1 h2 hc hatt hq0 hq2 (lift q ⟨hqp, hq2⟩)
    have s := mul_le_mul_of_nonneg_left (sectionSwirl_mono hB hRhub h1 h2 hc hatt hp.1 hqp hq2 (lift q ⟨hqp, hq2⟩)) (div_pos hVx hVy).le
    unfold sectionSide
    linarith
  have hsub : Set.Icc p q ⊆ Set.Ico p (π / 2) := fun x hx => ⟨hx.1, hx.2.trans_lt hq2⟩
  have hcs : ContinuousOn (sectionSide o B r chord Rhub Rtip Vx Vy cl cd) (Set.Icc p q) := fun x hx =>
    side_within hB hRhub h1 h2 (hp.1.trans_le hx.1) (hx.2.trans_lt hq2) ((hcont x (hsub hx)).mono hsub) ((hcont' x (hsub hx)).mono hsub)
  obtain ⟨phi, hphi, e⟩ := intermediate_value_Icc hqp hcs ⟨hlow, hhigh⟩
  refine ⟨phi, hsub hphi, ?_⟩
  rw [side phi (hsub hphi), e, sub_self, mul_zero]

/-- The residual at an angle without lift and without drag has the sign of that angle less the inflow angle of the undisturbed wind. -/
theorem residual_zero_lift (hB : 0 < B) (hRhub : 0 < Rhub) (h1 : Rhub < r) (h2 : r < Rtip) (hVy : 0 < Vy) (hp : p ∈ Set.Ioo 0 (π / 2))
    (hcl : cl p = 0) (hcd : o.useCd = true → cd p = 0) :
    (inductionFactors r chord Rhub Rtip p (cl p) (cd p) B Vx Vy o).fzero ≤ 0 ↔ tan p ≤ Vx / Vy := by
  have hcp : 0 < cos p := cos_pos_of_mem_Ioo ⟨by linarith [pi_pos, hp.1], hp.2⟩
  have hd : (if o.useCd = true then cd p else 0) = 0 := by
    split_ifs with hu
    · exact hcd hu
    · rfl
  have hk : kSpec o B r chord Rhub Rtip p (cl p) (cd p) = 0 := by
    unfold kSpec cnSpec
    rw [hd, hcl]
    simp
  have hu : usedDrag o cd p = 0 := hd
  rw [residual_side hB hRhub h1 h2 hVy hp.1 hp.2 (by rw [hk]; exact ⟨by norm_num, fun h => by norm_num at h⟩)]
  have e : sectionSide o B r chord Rhub Rtip Vx Vy cl cd p = tan p := by
    unfold sectionSide sectionWake sectionSwirl
    simp only [hu, hcl, zero_mul, add_zero, mul_zero, zero_div, sub_zero, ite_self]
    unfold forceK wakeOf
    rw [zero_mul, zero_div, if_pos (by norm_num)]
    ring
  rw [e]
  constructor
  · intro h
    by_contra h'
    push Not at h'
    have := mul_pos hcp (sub_pos.mpr h')
    linarith
  · intro h
    exact mul_nonpos_of_nonneg_of_nonpos hcp.le (by linarith)

end

/-! ## The station -/

section
variable {R : Rotor ℝ} {Uinf Omega pitch az : ℝ} {i : ℕ} {bq : RootFinder ℝ}

/-- Data from which the search succeeds: attached flow, no guard, continuous coefficients, and an angle with lift at which the
residual is not positive. -/
structure Solvable (R : Rotor ℝ) (Uinf Omega pitch az : ℝ) (i : ℕ) (phi0 : ℝ) : Prop where
  flow : AttachedStation R Uinf Omega pitch az i
  guard : ∀ p ∈ Set.Icc (1 / 1000000) (π / 2), GuardFreeAngle R Uinf Omega pitch az i p
  start : phi0 ∈ Set.Ico (1 / 1000000) (π / 2)
  lift : 0 ≤ (stationPolar R Uinf Omega pitch az i phi0).1
  smooth : ContinuousOn (stationPolar R Uinf Omega pitch az i) (Set.Ico phi0 (π / 2))
  low : stationResidual R Uinf Omega pitch az i phi0 ≤ 0

/-- **C122** A station in attached flow is solved: the search takes the interval up to 90°, finds an angle there without warning, and
the section has lift at it. -/
theorem attached_solved (hbq : FindsCrossing bq) (hinv : R.inv = none) (hre : FixedRe R i) (hO : Omega ≠ 0) {phi0 : ℝ}
    (D : Solvable R Uinf Omega pitch az i phi0) {R' : Rotor ℝ} {L : LoadsOut ℝ}
    (h : distributedAeroLoads bq R Uinf Omega pitch az = (R', .ok L)) {s : Station ℝ} (hs : L.stations[i]? = some s) :
    SolvedWithLift R Uinf Omega pitch az i s ∧ phi0 ≤ s.phi ∧ stationResidual R Uinf Omega pitch az i s.phi = 0 := by
  have e := fun x => stationResidual_const (R := R) (Uinf := Uinf) (Omega := Omega) (pitch := pitch) (az := az) (i := i) hinv hre x
  obtain ⟨A, hg, h0, hl, hc, hr⟩ := D
  have hpos : (0 : ℝ) < 1 / 1000000 := by norm_num
  have h0' : 0 < phi0 := hpos.trans_le h0.1
  have hgs : ∀ q ∈ Set.Ico phi0 (π / 2), GuardFreeAngle R Uinf Omega pitch az i q := fun q hq => hg q ⟨h0.1.trans hq.1, hq.2.le⟩
  rw [e] at hr
  obtain ⟨phi, hphi, hroot⟩ := attached_solution (cl := fun p => (stationPolar R Uinf Omega pitch az i p).1)
    (cd := fun p => (stationPolar R Uinf Omega pitch az i p).2) A.blades A.hub A.inner A.outer A.chord A.front A.sense A.flow ⟨h0', h0.2⟩ hl
    (continuous_fst.comp_continuousOn hc) (continuous_snd.comp_continuousOn hc) hgs hr
  have hphi0 : 0 < phi := h0'.trans_le hphi.1
  have hlp : 0 ≤ (stationPolar R Uinf Omega pitch az i phi).1 := hl.trans (A.flow.lift h0' hphi.1 hphi.2.le)
  obtain ⟨k1, k2⟩ := attached_sign_all A.blades A.hub A.inner A.outer A.chord A.front A.sense A.flow ⟨hphi0, hphi.2⟩ hroot hlp (hgs phi hphi)
  have f1 : ∀ x, 1 / 1000000 ≤ x → x < phi → stationResidual R Uinf Omega pitch az i x < 0 := fun x hx hx' => by
    rw [e]
    exact k1 x (hpos.trans_le hx) hx' (hg x ⟨hx, (hx'.trans hphi.2).le⟩)
  have f2 : ∀ x, phi < x → x ≤ π / 2 → 0 < stationResidual R Uinf Omega pitch az i x := fun x hx hx' => by
    rw [e]
    exact k2 x hx hx' (hg x ⟨h0.1.trans (hphi.1.trans hx.le), hx'⟩)
  have f0 : stationResidual R Uinf Omega pitch az i phi = 0 := by
    rw [e]
    exact hroot
  have hb : bracket (stationResidual R Uinf Omega pitch az i) = (1 / 1000000, π / 2) := by
    refine (bracket_choice _).1 ?_
    rcases (h0.1.trans hphi.1).eq_or_lt with hE | hlt
    · rw [hE, f0, zero_mul]
    · exact (mul_neg_of_neg_of_pos (f1 _ le_rfl hlt) (f2 _ hphi.2 le_rfl)).le
  have hfind := hbq _ _ _ phi ⟨h0.1.trans hphi.1, hphi.2.le⟩ f1 f0 f2
  obtain ⟨d, a1, -⟩ := solveStation_real (loads_station h hs).2
  have hf : stationErrf R (deg2rad pitch) (rotorWind R Uinf Omega (deg2rad az)) i = stationResidual R Uinf Omega pitch az i := rfl
  unfold stationPhi at a1
  rw [if_neg (by simpa using hO), hf] at a1
  split_ifs at a1
  unfold solvePhi at a1
  simp only [hb, hfind, Except.ok.injEq, Prod.mk.injEq] at a1
  obtain ⟨a1, a2⟩ := a1
  obtain ⟨c1, -⟩ := station_facts hinv hre h hO hs (Vx := (rotorWind R Uinf Omega (az * (π / 180)) i).1)
    (Vy := (rotorWind R Uinf Omega (az * (π / 180)) i).2) rfl A.front.ne' A.sense.ne'
  rw [← a1] at c1 ⊢
  refine ⟨⟨a2.symm, ?_, ?_, ?_⟩, hphi.1, f0⟩
  · rw [← a1]; exact ⟨hphi0, hphi.2⟩
  · rw [c1]; exact hlp
  · rw [← a1]
    exact regular_of_lift A.blades A.hub A.inner A.outer A.chord A.flow hphi0 hphi.2.le hlp (hgs phi hphi)

/-- **C122** Without drag in the residual, or where the drag vanishes, it is enough that the angle of zero lift is positive and
below the inflow angle of the undisturbed wind. -/
theorem solvable_zero_lift (hinv : R.inv = none) (hre : FixedRe R i) (A : AttachedStation R Uinf Omega pitch az i)
    (hg : ∀ p ∈ Set.Icc (1 / 1000000) (π / 2), GuardFreeAngle R Uinf Omega pitch az i p) {phi0 : ℝ} (h0 : phi0 ∈ Set.Ico (1 / 1000000) (π / 2))
    (hl : (stationPolar R Uinf Omega pitch az i phi0).1 = 0) (hd : R.opts.useCd = true → (stationPolar R Uinf Omega pitch az i phi0).2 = 0)
    (hc : ContinuousOn (stationPolar R Uinf Omega pitch az i) (Set.Ico phi0 (π / 2)))
    (hw : tan phi0 ≤ (rotorWind R Uinf Omega (az * (π / 180)) i).1 / (rotorWind R Uinf Omega (az * (π / 180)) i).2) :
    Solvable R Uinf Omega pitch az i phi0 := by
  refine ⟨A, hg, h0, hl.ge, hc, ?_⟩
  rw [stationResidual_const hinv hre]
  exact (residual_zero_lift (cl := fun p => (stationPolar R Uinf Omega pitch az i p).1) (cd := fun p => (stationPolar R Uinf Omega pitch az i p).2)
    A.blades A.hub A.inner A.outer A.sense ⟨lt_of_lt_of_le (by norm_num) h0.1, h0.2⟩ hl hd).mpr hw

end

/-! ## The rotor -/

/-- **C122** A rotor all of whose stations are solvable in every sector is in the operation for which the results are unique, converge
under refinement and vary continuously (C112, C119, C121): nothing need be assumed about the angles the search returns. -/
theorem attached_operation {bq : RootFinder ℝ} (hbq : FindsCrossing bq) (R : Rotor ℝ) (c : Cond ℝ) (hO : c.Omega ≠ 0) (hinv : R.inv = none)
    (hre : ∀ i < R.n, FixedRe R i) (phi0 : ℕ → ℕ → ℝ)
    (D : ∀ k < R.nSector, ∀ i < R.n, Solvable R c.Uinf c.Omega c.pitch (k * (360 / R.nSector)) i (phi0 k i)) : AttachedOperation bq R c := by
  refine ⟨hO, hinv, hre, fun k hk L hL i s hs => ?_⟩
  have e : distributedAeroLoads bq R c.Uinf c.Omega c.pitch (k * (360 / R.nSector)) = (_, .ok L) := Prod.ext rfl hL
  have hi := (loads_station e hs).1
  exact ⟨(D k hk i hi).flow, (attached_solved hbq hinv (hre i hi) hO (D k hk i hi) e hs).1⟩

/-- **C122** Without derivatives the call itself succeeds, and no station is reported with a warning. -/
theorem attached_loads {bq : RootFinder ℝ} (hbq : FindsCrossing bq) (hbe : OnlyValueError bq) (R : Rotor ℝ) (Uinf Omega pitch az : ℝ)
    (hO : Omega ≠ 0) (hinv : R.inv = none) (hit : R.iterRe ≠ 0) (hd : R.derivatives = false) (hre : ∀ i < R.n, FixedRe R i) (phi0 : ℕ → ℝ)
    (D : ∀ i < R.n, Solvable R Uinf Omega pitch az i (phi0 i)) :
    ∃ L, (distributedAeroLoads bq R Uinf Omega pitch az).2 = .ok L ∧ L.stations.length = R.n ∧
      ∀ (i : ℕ) (s : Station ℝ), L.stations[i]? = some s → SolvedWithLift R Uinf Omega pitch az i s := by
  obtain ⟨L, h1, h2, -⟩ := distributedAeroLoads_finds bq hbe R Uinf Omega pitch az hit hd (by simpa using hO)
  have e : distributedAeroLoads bq R Uinf Omega pitch az = (_, .ok L) := Prod.ext rfl h1
  refine ⟨L, h1, h2, fun i s hs => ?_⟩
  have hi := (loads_station e hs).1
  exact (attached_solved hbq hinv (hre i hi) hO (D i hi) e hs).1

/-! ## More wind -/

/-- **C122** A solvable station stays solvable in a higher ratio of axial to tangential inflow, if its airfoil ignores the Reynolds number. -/
theorem Solvable.more_wind {R : Rotor ℝ} {Uinf Uinf' Omega Omega' pitch az az' : ℝ} {i : ℕ} {phi0 : ℝ} (D : Solvable R Uinf Omega pitch az i phi0)
    (hinv : R.inv = none) (hre : (R.af i).ReIndependent) (hVx : 0 < (rotorWind R Uinf' Omega' (az' * (π / 180)) i).1)
    (hVy : 0 < (rotorWind R Uinf' Omega' (az' * (π / 180)) i).2)
    (hV : (rotorWind R Uinf Omega (az * (π / 180)) i).1 / (rotorWind R Uinf Omega (az * (π / 180)) i).2
      ≤ (rotorWind R Uinf' Omega' (az' * (π / 180)) i).1 / (rotorWind R Uinf' Omega' (az' * (π / 180)) i).2) :
    Solvable R Uinf' Omega' pitch az' i phi0 := by
  have e : stationPolar R Uinf' Omega' pitch az' i = stationPolar R Uinf Omega pitch az i := funext fun p => hre _ _ _
  obtain ⟨A, hg, h0, hl, hc, hr⟩ := D
  have h0' : 0 < phi0 := lt_of_lt_of_le (by norm_num) h0.1
  have hgf := hg phi0 ⟨h0.1, h0.2.le⟩
  have reg := regular_of_lift (cl := fun p => (stationPolar R Uinf Omega pitch az i p).1) (cd := fun p => (stationPolar R Uinf Omega pitch az i p).2)
    A.blades A.hub A.inner A.outer A.chord A.flow h0' h0.2.le hl hgf
  refine ⟨⟨A.blades, A.hub, A.inner, A.outer, A.chord, hVx, hVy, by rw [e]; exact A.flow⟩, fun p hp => ?_, h0, by rw [e]; exact hl, by rw [e]; exact hc, ?_⟩
  · have := hg p hp
    unfold GuardFreeAngle at this ⊢
    rw [e]
    exact this
  · rw [stationResidual_const hinv (.inr hre)] at hr ⊢
    rw [e]
    have hcp : 0 < cos phi0 := cos_pos_of_mem_Ioo ⟨by linarith [pi_pos], h0.2⟩
    rw [residual_side (cl := fun p => (stationPolar R Uinf Omega pitch az i p).1) (cd := fun p => (stationPolar R Uinf Omega pitch az i p).2)
      A.blades A.hub A.inner A.outer A.sense h0' h0.2 reg] at hr
    rw [residual_side (cl := fun p => (stationPolar R Uinf Omega pitch az i p).1) (cd := fun p => (stationPolar R Uinf Omega pitch az i p).2)
      A.blades A.hub A.inner A.outer hVy h0' h0.2 reg]
    have w := sectionWake_pos (chord := R.chord i) (cl := fun p => (stationPolar R Uinf Omega pitch az i p).1)
      (cd := fun p => (stationPolar R Uinf Omega pitch az i p).2) A.blades A.hub A.inner A.outer A.chord A.flow h0' h0.2 hl
    have hx : 0 < (rotorWind R Uinf Omega (az * (π / 180)) i).1 / (rotorWind R Uinf Omega (az * (π / 180)) i).2 := div_pos A.front A.sense
    unfold sectionSide at hr ⊢
    generalize (rotorWind R Uinf Omega (az * (π / 180)) i).1 / (rotorWind R Uinf Omega (az * (π / 180)) i).2 = x at hr hV hx
    generalize (rotorWind R Uinf' Omega' (az' * (π / 180)) i).1 / (rotorWind R Uinf' Omega' (az' * (π / 180)) i).2 = x' at hV ⊢
    generalize sectionWake _ _ _ _ _ _ _ _ _ = W at hr w ⊢
    generalize sectionSwirl _ _ _ _ _ _ _ _ _ = S at hr ⊢
    have h1 : W + x * S - x ≤ 0 := by
      by_contra h
      push Not at h
      linarith [mul_pos hcp h]
    have h2 : 0 < 1 - S := by
      by_contra h
      push Not at h
      have := mul_nonpos_of_nonneg_of_nonpos hx.le h
      linarith
    have h3 := mul_le_mul_of_nonneg_right hV h2.le
    exact mul_nonpos_of_nonneg_of_nonpos hcp.le (by linarith)

/-- **C122** More wind, more load (C113) from the data alone: a straight rotor in axial wind, airfoils that ignore the Reynolds number,
every station solvable at the lower wind speed from an angle at which its lift drives the rotor.  Thrust, blade root moment, torque and
power are larger at the higher speed, whatever the root finder. -/
theorem evaluate_rises_solvable (bq : RootFinder ℝ) (hbq : ExactRoots bq) (hbc : FindsCrossing bq) (R : Rotor ℝ) (cs : List (Cond ℝ)) (o : EvalOut ℝ)
    (co : Bool) (h : (evaluate bq R cs co).2 = .ok o) (m m' : ℕ) (c c' : Cond ℝ) (x x' : CondOut ℝ) (hc : cs[m]? = some c)
    (hx : o.conds[m]? = some x) (hc' : cs[m']? = some c') (hx' : o.conds[m']? = some x') (G : StraightRotor R) (hinv : R.inv = none)
    (hre : ∀ i < R.n, (R.af i).ReIndependent) (hB : 0 < R.B) (hns : 0 < R.nSector) (hrho : 0 < R.rho) (hchord : ∀ i < R.n, 0 < R.chord i)
    (hU : 0 < c.Uinf) (hUU : c.Uinf < c'.Uinf) (hO : 0 < c.Omega) (hOO : c'.Omega = c.Omega) (hpp : c'.pitch = c.pitch) (phi0 : ℕ → ℝ)
    (D : ∀ i < R.n, Solvable R c.Uinf c.Omega c.pitch 0 i (phi0 i))
    (hdrag : ∀ i < R.n, DragPolar (fun p => (pitchedPolar R c.pitch i p).1) (fun p => (pitchedPolar R c.pitch i p).2))
    (hone : ∀ i < R.n, RegularPitched R c.pitch i (1 / 1000000)) (hlift : ∀ i < R.n, 0 < (pitchedPolar R c.pitch i (phi0 i)).1)
    (hdrive : ∀ i < R.n, (pitchedPolar R c.pitch i (phi0 i)).2 * cos (phi0 i) ≤ (pitchedPolar R c.pitch i (phi0 i)).1 * sin (phi0 i)) :
    x.acc.T.val < x'.acc.T.val ∧ x.acc.Mb.val < x'.acc.Mb.val ∧ x.acc.Q.val < x'.acc.Q.val ∧ x.P.val < x'.P.val := by
  have hpi := pi_pos
  have hcos := G.cos_pos
  have hpol := fun {i : ℕ} (hi : i < R.n) (U O az : ℝ) => stationPolar_pitched (hre i hi) U O c.pitch az
  have ereg : ∀ {i : ℕ}, i < R.n → ∀ U O az p, RegularAngle R U O c.pitch az i p → RegularPitched R c.pitch i p := fun hi U O az p hp => by
    unfold RegularAngle at hp
    rw [hpol hi] at hp
    exact hp
  have hri : ∀ {i : ℕ}, i < R.n → 0 < R.r i := fun hi => G.hub.trans (G.range hi).1
  have Dk : ∀ {U az : ℝ} {i : ℕ}, c.Uinf ≤ U → i < R.n → Solvable R U c.Omega c.pitch az i (phi0 i) := by
    intro U az i hUU hi
    have hUp := hU.trans_le hUU
    have hr := hri hi
    have hden : 0 < c.Omega * π / 30 * (R.r i * cos R.precone) := by positivity
    refine (D i hi).more_wind hinv (hre i hi) ?_ ?_ ?_
    · rw [G.wind U c.Omega _ hi]; positivity
    · rw [G.wind U c.Omega _ hi]; exact hden
    · rw [G.wind U c.Omega _ hi, G.wind c.Uinf c.Omega _ hi]
      exact div_le_div_of_nonneg_right (mul_le_mul_of_nonneg_right hUU hcos.le) hden.le
  have sol : ∀ {U az : ℝ} {L : LoadsOut ℝ} {i : ℕ} {s : Station ℝ}, c.Uinf ≤ U → (distributedAeroLoads bq R U c.Omega c.pitch az).2 = .ok L →
      L.stations[i]? = some s → i < R.n ∧ SolvedWithLift R U c.Omega c.pitch az i s ∧ phi0 i ≤ s.phi := by
    intro U az L i s hUU hL hs
    have e : distributedAeroLoads bq R U c.Omega c.pitch az = (_, .ok L) := Prod.ext rfl hL
    have hi := (loads_station e hs).1
    obtain ⟨a, b, -⟩ := attached_solved hbc hinv (.inr (hre i hi)) hO.ne' (Dk hUU hi) e hs
    exact ⟨hi, a, b⟩
  have pos : ∀ {i : ℕ}, i < R.n → 0 < phi0 i := fun hi => lt_of_lt_of_le (by norm_num) (D _ hi).start.1
  have facts : ∀ {az : ℝ} {L : LoadsOut ℝ} {i : ℕ} {s : Station ℝ}, (distributedAeroLoads bq R c.Uinf c.Omega c.pitch az).2 = .ok L →
      L.stations[i]? = some s → s.loads.cl = (pitchedPolar R c.pitch i s.phi).1 ∧ s.loads.cd = (pitchedPolar R c.pitch i s.phi).2 ∧ 0 < s.loads.cl := by
    intro az L i s hL hs
    have e : distributedAeroLoads bq R c.Uinf c.Omega c.pitch az = (_, .ok L) := Prod.ext rfl hL
    obtain ⟨hi, a, b⟩ := sol le_rfl hL hs
    have A := (Dk (az := az) le_rfl hi).flow
    obtain ⟨c1, c2, -⟩ := station_facts hinv (.inr (hre i hi)) e hO.ne' hs (Vx := (rotorWind R c.Uinf c.Omega (az * (π / 180)) i).1)
      (Vy := (rotorWind R c.Uinf c.Omega (az * (π / 180)) i).2) rfl A.front.ne' A.sense.ne'
    rw [hpol hi] at c1 c2
    have hm := A.flow.lift (pos hi) b a.angle.2.le
    simp only [hpol hi] at hm
    exact ⟨c1, c2, by rw [c1]; exact (hlift i hi).trans_le hm⟩
  have drive : ∀ k < R.nSector, ∀ L, (distributedAeroLoads bq R c.Uinf c.Omega c.pitch (k * (360 / R.nSector))).2 = .ok L →
      ∀ (i : ℕ) (s : Station ℝ), L.stations[i]? = some s → 0 ≤ s.loads.Tp := by
    intro k _ L hL i s hs
    obtain ⟨hi, a, b⟩ := sol le_rfl hL hs
    obtain ⟨c1, c2, c3⟩ := facts hL hs
    obtain ⟨f1, -, f3, -⟩ := distributedAeroLoads_forces bq R _ _ _ _ _ L (Prod.ext rfl hL) i s hs
    have hq : 0 ≤ s.loads.q := by rw [f1]; positivity
    rw [f3]
    refine mul_nonneg (mul_nonneg hq (hchord i hi).le) ?_
    have hp0 := pos hi
    have hs0 : 0 < sin (phi0 i) := sin_pos_of_pos_of_lt_pi hp0 (by linarith [(D i hi).start.2])
    have hcs0 : 0 < cos (phi0 i) := cos_pos_of_mem_Ioo ⟨by linarith, (D i hi).start.2⟩
    have hss : sin (phi0 i) ≤ sin s.phi := sin_le_sin_of_le_of_le_pi_div_two (by linarith) a.angle.2.le b
    have hcc : cos s.phi ≤ cos (phi0 i) := cos_le_cos_of_nonneg_of_le_pi hp0.le (by linarith [a.angle.2]) b
    have hcs : 0 < cos s.phi := cos_pos_of_mem_Ioo ⟨by linarith [a.angle.1], a.angle.2⟩
    have g := (hdrag i hi).glide hp0 b a.angle.2.le
    have d0 := ((hdrag i hi).drag hp0 b a.angle.2.le).1
    have d1 := hdrive i hi
    have l0 := hlift i hi
    rw [← c1, ← c2] at g
    generalize (pitchedPolar R c.pitch i (phi0 i)).1 = l at *
    generalize (pitchedPolar R c.pitch i (phi0 i)).2 = d at *
    have t1 : s.loads.cd * l * cos s.phi ≤ d * s.loads.cl * cos s.phi := mul_le_mul_of_nonneg_right g hcs.le
    have t2 : d * s.loads.cl * cos s.phi ≤ d * s.loads.cl * cos (phi0 i) := mul_le_mul_of_nonneg_left hcc (mul_nonneg d0 c3.le)
    have t3 : d * cos (phi0 i) * s.loads.cl ≤ l * sin (phi0 i) * s.loads.cl := mul_le_mul_of_nonneg_right d1 c3.le
    have t4 : l * s.loads.cl * sin (phi0 i) ≤ l * s.loads.cl * sin s.phi := mul_le_mul_of_nonneg_left hss (mul_nonneg l0.le c3.le)
    have t5 : 0 ≤ l * (s.loads.cl * sin s.phi - s.loads.cd * cos s.phi) := by linarith
    exact nonneg_of_mul_nonneg_right t5 l0
  obtain ⟨T, M, QP⟩ := evaluate_rises bq hbq R cs o co h m m' c c' x x' hc hx hc' hx' G hinv hre hB hns hrho hchord hU hUU hO hOO hpp
    (fun i hi => by have := (D i hi).flow.flow; rw [hpol hi] at this; exact this) hdrag
    (fun i hi => ⟨hone i hi, by
      have hle : π / 2 ∈ Set.Icc (1 / 1000000) (π / 2) := ⟨(D i hi).start.1.trans (D i hi).start.2.le, le_rfl⟩
      have A := (D i hi).flow
      have l := (D i hi).lift.trans (A.flow.lift (pos hi) (D i hi).start.2.le le_rfl)
      exact ereg hi _ _ _ _ (regular_of_lift A.blades A.hub A.inner A.outer A.chord A.flow (by linarith) le_rfl l ((D i hi).guard _ hle))⟩)
    (fun k _ L hL i s hs => by
      obtain ⟨hi, a, -⟩ := sol le_rfl hL hs
      exact ⟨a.solved, a.angle, (facts hL hs).2.2, ereg hi _ _ _ _ a.regular⟩)
    (fun k _ L hL i s hs => by
      rw [hOO, hpp] at hL
      obtain ⟨hi, a, -⟩ := sol hUU.le hL hs
      exact ⟨a.solved, ereg hi _ _ _ _ a.regular⟩)
  exact ⟨T, M, QP drive⟩

/-- **C122** The curves over the wind speed at fixed rotor speed and pitch, from the data alone: above a wind speed `U0` at which every
station is solvable from an angle at which its lift drives the rotor, thrust, blade root moment, torque and power are continuous and
strictly increasing functions of the wind speed. -/
theorem power_curve (bq : RootFinder ℝ) (hbq : ExactRoots bq) (hbc : FindsCrossing bq) (hbe : OnlyValueError bq) (R : Rotor ℝ) (G : StraightRotor R)
    (hinv : R.inv = none) (hd : R.derivatives = false) (hit : R.iterRe ≠ 0) (hre : ∀ i < R.n, (R.af i).ReIndependent)
    (hcont : ∀ i < R.n, Continuous fun z : ℝ × ℝ => (R.af i).evaluate z.1 z.2) (hB : 0 < R.B) (hns : 0 < R.nSector) (hrho : 0 < R.rho) (hmu : R.mu ≠ 0)
    (hchord : ∀ i < R.n, 0 < R.chord i) (hz : ∀ k < R.nSector, ∀ i < R.n, AboveGround R (k * (360 / R.nSector) * (π / 180)) i)
    {U0 Omega pitch : ℝ} (hU : 0 < U0) (hO : 0 < Omega) (phi0 : ℕ → ℝ) (D : ∀ i < R.n, Solvable R U0 Omega pitch 0 i (phi0 i))
    (hdrag : ∀ i < R.n, DragPolar (fun p => (pitchedPolar R pitch i p).1) (fun p => (pitchedPolar R pitch i p).2))
    (hone : ∀ i < R.n, RegularPitched R pitch i (1 / 1000000)) (hlift : ∀ i < R.n, 0 < (pitchedPolar R pitch i (phi0 i)).1)
    (hdrive : ∀ i < R.n, (pitchedPolar R pitch i (phi0 i)).2 * cos (phi0 i) ≤ (pitchedPolar R pitch i (phi0 i)).1 * sin (phi0 i)) :
    ∃ T M Q P : ℝ → ℝ, (∀ U, ∃ o x, (evaluate bq R [⟨U, Omega, pitch⟩] false).2 = .ok o ∧ o.conds = [x] ∧ x.acc.T.val = T U ∧ x.acc.Mb.val = M U ∧
        x.acc.Q.val = Q U ∧ x.P.val = P U) ∧
      ∀ f ∈ [T, M, Q, P], ContinuousOn f (Set.Ici U0) ∧ StrictMonoOn f (Set.Ici U0) := by
  have hcos := G.cos_pos
  have hpi := pi_pos
  have tot : ∀ U : ℝ, ∃ o x, (evaluate bq R [⟨U, Omega, pitch⟩] false).2 = .ok o ∧ o.conds = [x] := fun U => by
    obtain ⟨o, x, h1, h2, -⟩ := evaluate_total hbe R ⟨U, Omega, pitch⟩ false hit hd hO.ne' hns.ne'
    exact ⟨o, x, h1, h2⟩
  choose o x ho hx using tot
  have Dk : ∀ {U az : ℝ} {i : ℕ}, U0 ≤ U → i < R.n → Solvable R U Omega pitch az i (phi0 i) := by
    intro U az i hUU hi
    have hUp := hU.trans_le hUU
    have hr : 0 < R.r i := G.hub.trans (G.range hi).1
    have hden : 0 < Omega * π / 30 * (R.r i * cos R.precone) := by positivity
    refine (D i hi).more_wind hinv (hre i hi) ?_ ?_ ?_
    · rw [G.wind U Omega _ hi]; positivity
    · rw [G.wind U Omega _ hi]; exact hden
    · rw [G.wind U Omega _ hi, G.wind U0 Omega _ hi]
      exact div_le_div_of_nonneg_right (mul_le_mul_of_nonneg_right hUU hcos.le) hden.le
  have op : ∀ {U : ℝ}, U0 ≤ U → AttachedOperation bq R ⟨U, Omega, pitch⟩ := fun hUU =>
    attached_operation hbc R _ hO.ne' hinv (fun i hi => .inr (hre i hi)) (fun _ i => phi0 i) fun k _ i hi => Dk hUU hi
  have cont := fun V0 : Set.Ici U0 => attached_rotor_limit (l := 𝓝 V0) (R := fun _ : Set.Ici U0 => R) (R0 := R) hbq
    ⟨fun _ => rfl, fun _ => rfl, fun _ => rfl, fun _ => rfl, fun _ => rfl, fun _ => rfl, fun _ => rfl, fun _ => rfl, fun _ => rfl,
      fun _ => rfl, fun _ => rfl, fun _ => rfl, fun i hi u v p q hu hv => ((hcont i hi).tendsto (p, q)).comp (hu.prodMk_nhds hv),
      fun _ _ => tendsto_const_nhds, fun _ _ => tendsto_const_nhds, tendsto_const_nhds, tendsto_const_nhds, tendsto_const_nhds, tendsto_const_nhds,
      tendsto_const_nhds, tendsto_const_nhds⟩ hmu hz
    (c := fun V => ⟨V, Omega, pitch⟩) (c0 := ⟨V0, Omega, pitch⟩) continuous_subtype_val.continuousAt tendsto_const_nhds tendsto_const_nhds
    (fun V => op V.2) (op V0.2) (fun V => ho V) (m := fun _ => 0) (fun _ => rfl) (x := fun V => x V) (fun V => by rw [hx V]; rfl) (ho V0) (m0 := 0) rfl
    (x0 := x V0) (by rw [hx V0]; rfl)
  have rise : ∀ {U U' : ℝ}, U0 ≤ U → U < U' → (x U).acc.T.val < (x U').acc.T.val ∧ (x U).acc.Mb.val < (x U').acc.Mb.val ∧
      (x U).acc.Q.val < (x U').acc.Q.val ∧ (x U).P.val < (x U').P.val := by
    intro U U' h1 h2
    obtain ⟨O, hO2⟩ := evaluate_conditions_ok bq R [⟨U, Omega, pitch⟩, ⟨U', Omega, pitch⟩] false (by simp) fun c hc => by
      simp only [List.mem_cons, List.not_mem_nil, or_false] at hc
      rcases hc with rfl | rfl
      · exact ⟨_, ho U⟩
      · exact ⟨_, ho U'⟩
    have F := evaluate_conditions bq R _ false O hO2
    obtain ⟨y, y', hy⟩ := List.length_eq_two.mp (evaluate_length hO2)
    rw [hy] at F
    simp only [List.forall₂_cons, List.Forall₂.nil, and_true] at F
    obtain ⟨⟨o1, e1, e2⟩, o2, e3, e4⟩ := F
    rw [ho U, Except.ok.injEq] at e1
    rw [ho U', Except.ok.injEq] at e3
    subst e1 e3
    rw [hx, List.cons.injEq] at e2 e4
    rw [e2.1, e4.1]
    exact evaluate_rises_solvable bq hbq hbc R _ O false hO2 0 1 _ _ y y' rfl (by rw [hy]; rfl) rfl (by rw [hy]; rfl) G hinv hre hB hns hrho hchord
      (hU.trans_le h1) h2 hO rfl rfl phi0 (fun i hi => Dk h1 hi) hdrag hone hlift hdrive
  have con : ∀ {f : ℝ → ℝ}, (∀ V0 : Set.Ici U0, Tendsto (fun V : Set.Ici U0 => f V) (𝓝 V0) (𝓝 (f V0))) → ContinuousOn f (Set.Ici U0) := fun h => by
    rw [continuousOn_iff_continuous_domRestrict, continuous_iff_continuousAt]
    exact h
  refine ⟨fun U => (x U).acc.T.val, fun U => (x U).acc.Mb.val, fun U => (x U).acc.Q.val, fun U => (x U).P.val,
    fun U => ⟨o U, x U, ho U, hx U, rfl, rfl, rfl, rfl⟩, fun f hf => ?_⟩
  simp only [List.mem_cons, List.not_mem_nil, or_false] at hf
  rcases hf with rfl | rfl | rfl | rfl
  · exact ⟨con fun V => (cont V).1, fun U hU1 U' _ h => (rise hU1 h).1⟩
  · exact ⟨con fun V => (cont V).2.2.2.2.2.2.1, fun U hU1 U' _ h => (rise hU1 h).2.1⟩
  · exact ⟨con fun V => (cont V).2.2.2.1, fun U hU1 U' _ h => (rise hU1 h).2.2.1⟩
  · exact ⟨con fun V => (cont V).2.2.2.2.2.2.2, fun U hU1 U' _ h => (rise hU1 h).2.2.2⟩

/-! ## An example -/

/-- Without losses the guard is never met. -/
theorem guardFree_lossless (k : ℝ) : GuardFree 1 k := fun h => by
  rw [abs_of_nonneg (by linarith)]
  linarith

/-- Two stations set at 45°, thin airfoils, wake rotation. -/
noncomputable def thinRotor : Rotor ℝ :=
  { annulusRotor (fun i => 6 + i) (fun _ => 1) (fun alpha => 2 * π * sin alpha) 1 10 with theta := (fun _ => π / 4), opts := ⟨true, false, false, true⟩ }

theorem thinRotor_straight : StraightRotor thinRotor := by
  have h := annulusRotor_straight (r := fun i => 6 + (i : ℝ)) (chord := fun _ => 1) (cl := fun alpha => 2 * π * sin alpha) (Rhub := 1) (Rtip := 10)
    (by norm_num) (by norm_num) (by norm_num) (by norm_num)
  exact ⟨h.n, h.hub, h.first, h.inc, h.last, h.curve, h.curveTip, h.sweep, h.sweepTip, h.cone, h.radius, ⟨rfl, rfl, rfl⟩⟩

/-- Its stations are solvable in a wind of at least 7 m/s; below 45° the lift is negative, and `1 + k` vanishes at some angle. -/
theorem thinRotor_solvable {U : ℝ} (hU : 7 ≤ U) (az : ℝ) {i : ℕ} (hi : i < 2) : Solvable thinRotor U (30 / π) 0 az i (π / 4) := by
  have hpi := pi_gt_three
  have hV := thinRotor_straight.wind U (30 / π) (az * (π / 180)) hi
  have hir : (i : ℝ) ≤ 1 := by exact_mod_cast (by omega : i ≤ 1)
  have hi0 : (0 : ℝ) ≤ i := by positivity
  have hV' : rotorWind thinRotor U (30 / π) (az * (π / 180)) i = (U, 6 + (i : ℝ)) := by
    rw [hV]
    simp [thinRotor, annulusRotor, demoRotor, pi_ne_zero]
  have hpol : ∀ p, stationPolar thinRotor U (30 / π) 0 az i p = (2 * π * sin (p - π / 4), 0) := fun p => by
    simp [stationPolar, thinRotor, annulusRotor]
  have hF : ∀ p, lossSpec thinRotor.opts thinRotor.B (thinRotor.r i) thinRotor.Rhub thinRotor.Rtip p = 1 := fun p => by
    simp [lossSpec, thinRotor, annulusRotor]
  have hr := thinRotor_straight.range hi
  have hB : 0 < thinRotor.B := by simp [thinRotor, annulusRotor, demoRotor]
  have A : AttachedStation thinRotor U (30 / π) 0 az i := by
    refine ⟨hB, thinRotor_straight.hub, hr.1, hr.2, by simp [thinRotor, annulusRotor], by rw [hV']; simp only; linarith,
      by rw [hV']; simp only; linarith, ?_⟩
    refine attachedFlow_of_constant_drag hB thinRotor_straight.hub hr.1 hr.2 (fun h0 h1 h2 => ?_) fun _ => ⟨0, le_rfl, fun p _ _ => by simp only [hpol]⟩
    simp only [hpol]
    exact mul_le_mul_of_nonneg_left (sin_le_sin_of_le_of_le_pi_div_two (by linarith) (by linarith) (by linarith)) (by positivity)
  refine solvable_zero_lift rfl (.inr fun _ _ _ => rfl) A (fun p _ => ?_) ⟨by linarith, by linarith⟩ (by rw [hpol]; simp) (fun _ => by rw [hpol]) ?_ ?_
  · unfold GuardFreeAngle
    rw [hF]
    exact guardFree_lossless _
  · simp only [funext hpol]
    fun_prop
  · rw [hV', tan_pi_div_four]
    simp only
    rw [le_div_iff₀ (by linarith)]
    linarith

/-- No station of `thinRotor` is reported with a warning, and its operation is the one C112, C119 and C121 speak of. -/
example {U : ℝ} (hU : 7 ≤ U) : AttachedOperation someRoot thinRotor ⟨U, 30 / π, 0⟩ ∧
    ∃ L, (distributedAeroLoads someRoot thinRotor U (30 / π) 0 0).2 = .ok L ∧ L.stations.length = 2 ∧
      ∀ (i : ℕ) (s : Station ℝ), L.stations[i]? = some s → s.warned = false ∧ 0 ≤ s.loads.cl := by
  have hO : 30 / π ≠ 0 := by positivity
  refine ⟨attached_operation someRoot_crossing thinRotor _ hO rfl (fun _ _ => .inr fun _ _ _ => rfl) (fun _ _ => π / 4) fun k _ i hi =>
    thinRotor_solvable hU _ hi, ?_⟩
  obtain ⟨L, h1, h2, h3⟩ := attached_loads someRoot_crossing someRoot_onlyValueError thinRotor U (30 / π) 0 0 hO rfl
    (by simp [thinRotor, annulusRotor, demoRotor]) rfl (fun _ _ => .inr fun _ _ _ => rfl) (fun _ => π / 4) fun i hi => thinRotor_solvable hU 0 hi
  exact ⟨L, h1, h2, fun i s hs => ⟨(h3 i s hs).solved, (h3 i s hs).lift⟩⟩

/-- The stations of `risingRotor` are solvable from the lower end of the search interval. -/
theorem risingRotor_solvable {U : ℝ} (hU : 1 ≤ U) (az : ℝ) {i : ℕ} (hi : i < 2) : Solvable risingRotor U (30 / π) 0 az i (1 / 1000000) := by
  have hpi := pi_gt_three
  have hV := risingRotor_straight.wind U (30 / π) (az * (π / 180)) hi
  have hc := risingRotor_straight.cos_pos
  have hr := risingRotor_straight.range hi
  have hri : 0 < risingRotor.r i := risingRotor_straight.hub.trans hr.1
  have hB : 0 < risingRotor.B := by simp [risingRotor, annulusRotor, demoRotor]
  have hpol : ∀ p, stationPolar risingRotor U (30 / π) 0 az i p = (sin p ^ 2, 0) := fun p => by
    simp [stationPolar, risingRotor, annulusRotor]
  have hF : ∀ p, lossSpec risingRotor.opts risingRotor.B (risingRotor.r i) risingRotor.Rhub risingRotor.Rtip p = 1 := fun p => by
    simp [lossSpec, risingRotor, annulusRotor]
  refine ⟨⟨hB, risingRotor_straight.hub, hr.1, hr.2, by simp only [risingRotor, annulusRotor]; positivity, by rw [hV]; positivity,
    by rw [hV]; positivity, ?_⟩, fun p _ => ?_, ⟨le_rfl, by linarith⟩, by rw [hpol]; positivity, by simp only [funext hpol]; fun_prop, ?_⟩
  · exact attachedFlow_of_constant_drag hB risingRotor_straight.hub hr.1 hr.2
      (fun h0 h1 h2 => by
        simp only [hpol]
        exact pow_le_pow_left₀ (sin_nonneg_of_nonneg_of_le_pi h0.le (by linarith)) (sin_le_sin_of_le_of_le_pi_div_two (by linarith) h2 h1) 2)
      fun _ => ⟨0, le_rfl, fun _ _ _ => by simp only [hpol]⟩
  · unfold GuardFreeAngle
    rw [hF]
    exact guardFree_lossless _
  · have hir : (i : ℝ) ≤ 1 := by exact_mod_cast (by omega : i ≤ 1)
    have hi0 : (0 : ℝ) ≤ i := by positivity
    rw [risingRotor_residual U az hi (by norm_num) (by linarith)]
    have hx : 1 / 7 ≤ U / (6 + i) := div_le_div₀ (by linarith) hU (by linarith) (by linarith)
    have s1 : sin (1 / 1000000) ≤ 1 / 1000000 := sin_le (by norm_num)
    have s0 : 0 ≤ sin (1 / 1000000) := sin_nonneg_of_nonneg_of_le_pi (by norm_num) (by linarith)
    have c1 : 1 / 2 ≤ cos (1 / 1000000) := by
      have := one_sub_sq_div_two_le_cos (x := 1 / 1000000)
      norm_num at this ⊢
      linarith
    have c2 := cos_le_one (1 / 1000000)
    have h3 : sin (1 / 1000000) * (1 + cos (1 / 1000000) / 4) ≤ 1 / 1000000 * (1 + 1 / 4) :=
      mul_le_mul s1 (by linarith) (by linarith) (by norm_num)
    have h4 : 1 / 7 * (1 / 2) ≤ U / (6 + i) * cos (1 / 1000000) := mul_le_mul hx c1 (by norm_num) (by linarith)
    linarith

/-- Thrust, root moment, torque and power of `risingRotor` are larger at 9 m/s than at 8 m/s. -/
example : ∃ o x x', (evaluate someRoot risingRotor [⟨8, 30 / π, 0⟩, ⟨9, 30 / π, 0⟩] false).2 = .ok o ∧ o.conds = [x, x'] ∧
    x.acc.T.val < x'.acc.T.val ∧ x.acc.Mb.val < x'.acc.Mb.val ∧ x.acc.Q.val < x'.acc.Q.val ∧ x.P.val < x'.P.val := by
  have hpi := pi_gt_three
  have hO : 0 < 30 / π := by positivity
  obtain ⟨o, ho⟩ := evaluate_conditions_ok someRoot risingRotor [⟨8, 30 / π, 0⟩, ⟨9, 30 / π, 0⟩] false (by simp) fun c hc => by
    have hc' : c.Omega = 30 / π := by simp only [List.mem_cons, List.not_mem_nil, or_false] at hc; rcases hc with rfl | rfl <;> rfl
    obtain ⟨o, x, h, -⟩ := evaluate_total someRoot_onlyValueError risingRotor c false (by simp [risingRotor, annulusRotor, demoRotor]) rfl
      (by rw [hc']; exact hO.ne') (by simp [risingRotor, annulusRotor, demoRotor])
    exact ⟨o, h⟩
  have hlen := evaluate_length ho
  obtain ⟨x, x', hxs⟩ : ∃ x x', o.conds = [x, x'] := List.length_eq_two.mp hlen
  have hpol : ∀ i p, pitchedPolar risingRotor 0 i p = (sin p ^ 2, 0) := fun i p => by
    simp [pitchedPolar, risingRotor, annulusRotor]
  have hs0 : 0 < sin (1 / 1000000) := sin_pos_of_pos_of_lt_pi (by norm_num) (by linarith)
  refine ⟨o, x, x', ho, hxs, ?_⟩
  refine evaluate_rises_solvable someRoot someRoot_exact someRoot_crossing risingRotor _ o false ho 0 1 _ _ x x' rfl (by rw [hxs]; rfl) rfl
    (by rw [hxs]; rfl) risingRotor_straight rfl (fun _ _ _ _ _ => rfl) (by simp [risingRotor, annulusRotor, demoRotor])
    (by simp [risingRotor, annulusRotor, demoRotor]) (by norm_num [risingRotor, annulusRotor, demoRotor])
    (fun i _ => by simp only [risingRotor, annulusRotor]; positivity) (by norm_num) (by norm_num) hO rfl rfl (fun _ => 1 / 1000000)
    (fun i hi => risingRotor_solvable (by norm_num) 0 hi) (fun i _ => ?_) (fun i hi => ?_) (fun i _ => ?_) (fun i _ => ?_)
  · constructor <;> intros <;> simp [hpol]
  · have D := risingRotor_solvable (U := 8) (by norm_num) 0 hi
    have A := D.flow
    exact regular_of_lift A.blades A.hub A.inner A.outer A.chord A.flow (by norm_num) (by linarith) D.lift (D.guard _ ⟨le_rfl, by linarith⟩)
  · simp only [hpol]; positivity
  · simp only [hpol, zero_mul]; positivity

/-- The hypotheses of `power_curve` are met: the power of `risingRotor` is a continuous, strictly increasing function of the wind speed from
1 m/s. -/
example : ∃ P : ℝ → ℝ, ContinuousOn P (Set.Ici 1) ∧ StrictMonoOn P (Set.Ici 1) ∧
    ∀ U, ∃ o x, (evaluate someRoot risingRotor [⟨U, 30 / π, 0⟩] false).2 = .ok o ∧ o.conds = [x] ∧ x.P.val = P U := by
  have hpi := pi_gt_three
  have hO : 0 < 30 / π := by positivity
  have hpol : ∀ i p, pitchedPolar risingRotor 0 i p = (sin p ^ 2, 0) := fun i p => by
    simp [pitchedPolar, risingRotor, annulusRotor]
  have hs0 : 0 < sin (1 / 1000000) := sin_pos_of_pos_of_lt_pi (by norm_num) (by linarith)
  obtain ⟨T, M, Q, P, h1, h2⟩ := power_curve someRoot someRoot_exact someRoot_crossing someRoot_onlyValueError risingRotor risingRotor_straight rfl rfl
    (by simp [risingRotor, annulusRotor, demoRotor]) (fun _ _ _ _ _ => rfl) (fun i _ => by simp only [risingRotor, annulusRotor]; fun_prop)
    (by simp [risingRotor, annulusRotor, demoRotor]) (by simp [risingRotor, annulusRotor, demoRotor]) (by norm_num [risingRotor, annulusRotor, demoRotor])
    (by norm_num [risingRotor, annulusRotor, demoRotor]) (fun i _ => by simp only [risingRotor, annulusRotor]; positivity)
    (fun k _ i hi => by
      have h1 : (i : ℝ) ≤ 1 := by exact_mod_cast Nat.lt_succ_iff.mp (show i < 2 from hi)
      have h0 : (0 : ℝ) ≤ i := by positivity
      set z := (k : ℝ) * (360 / risingRotor.nSector) * (π / 180)
      have c2 := neg_one_le_cos z
      have c1 := cos_le_one z
      refine ⟨by norm_num [risingRotor, annulusRotor, demoRotor], ?_⟩
      simp only [relHeight, risingRotor, annulusRotor, demoRotor, cos_zero, sin_zero]
      rw [show 1 + ((0 * sin z + ((6 + (i : ℝ)) * 1 + 0 * 0) * cos z) * 1 - (0 * 1 - (6 + (i : ℝ)) * 0) * 0) / 90
        = (90 + (6 + (i : ℝ)) * cos z) / 90 by ring]
      refine div_pos ?_ (by norm_num)
      nlinarith)
    one_pos hO (fun _ => 1 / 1000000) (fun i hi => risingRotor_solvable le_rfl 0 hi)
    (fun i _ => by constructor <;> intros <;> simp [hpol])
    (fun i hi => by
      have D := risingRotor_solvable (U := 1) le_rfl 0 hi
      have A := D.flow
      exact regular_of_lift A.blades A.hub A.inner A.outer A.chord A.flow (by norm_num) (by linarith) D.lift (D.guard _ ⟨le_rfl, by linarith⟩))
    (fun i _ => by simp only [hpol]; positivity) (fun i _ => by simp only [hpol, zero_mul]; positivity)
  exact ⟨P, (h2 P (by simp)).1, (h2 P (by simp)).2, fun U => by
    obtain ⟨o, x, a, b, -, -, -, c⟩ := h1 U
    exact ⟨o, x, a, b, c⟩⟩

end Verif
