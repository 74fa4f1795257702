import Verif.Lemmas.Attached
import Verif.Props.Continuity

/-!
# One solution in attached flow (C112)
-/

namespace Verif

open Real

/-! ## Specification -/

/-- Lift and drag coefficient as functions of the inflow angle between 0 and 90°: the lift does not fall; drag, if the residual
uses it, is not negative and does not fall, and with wake rotation it does not grow faster than `F sin φ`. -/
structure AttachedFlow (o : BemOpts) (B : ℕ) (r Rhub Rtip : ℝ) (cl cd : ℝ → ℝ) : Prop where
  lift : ∀ {p q}, 0 < p → p ≤ q → q ≤ π / 2 → cl p ≤ cl q
  drag : o.useCd = true → ∀ {p q}, 0 < p → p ≤ q → q ≤ π / 2 → 0 ≤ cd p ∧ cd p ≤ cd q
  swirl : o.useCd = true → o.wakeRot = true → ∀ {p q}, 0 < p → p ≤ q → q ≤ π / 2 →
    cd q / (lossSpec o B r Rhub Rtip q * sin q) ≤ cd p / (lossSpec o B r Rhub Rtip p * sin p)

/-- The routine divides neither by `1 + k = 0` nor replaces Buhl's formula near its removable singularity. -/
def RegularK (F k : ℝ) : Prop := k ≠ -1 ∧ (2 / 3 < k → 1 / 1000000 ≤ |2 * F * k - (25 / 9 - 2 * F)|)

/-! ## The section -/

section
variable {o : BemOpts} {B : ℕ} {r chord Rhub Rtip Vx Vy : ℝ} {cl cd : ℝ → ℝ}

/-- Constant drag is allowed. -/
theorem attachedFlow_of_constant_drag (hB : 0 < B) (hRhub : 0 < Rhub) (h1 : Rhub < r) (h2 : r < Rtip)
    (hl : ∀ {p q}, 0 < p → p ≤ q → q ≤ π / 2 → cl p ≤ cl q)
    (hd : o.useCd = true → ∃ c, 0 ≤ c ∧ ∀ p, 0 < p → p ≤ π / 2 → cd p = c) : AttachedFlow o B r Rhub Rtip cl cd where
  lift := hl
  drag hu p q hp hpq hq := by
    obtain ⟨c, hc, e⟩ := hd hu
    rw [e p hp (hpq.trans hq), e q (hp.trans_le hpq) hq]
    exact ⟨hc, le_rfl⟩
  swirl hu _ p q hp hpq hq := by
    obtain ⟨c, hc, e⟩ := hd hu
    rw [e p hp (hpq.trans hq), e q (hp.trans_le hpq) hq]
    have hF := lossSpec_range o B hB r Rhub Rtip p hRhub h1 h2 hp (by linarith [pi_pos])
    have hs : 0 < sin p := sin_pos_of_pos_of_lt_pi hp (by linarith [pi_pos])
    exact div_le_div_of_nonneg_left hc (mul_pos hF.1 hs) (lossSpec_sin hB hRhub h1 h2 hp hpq hq)

/-- Drag as the residual sees it. -/
noncomputable def usedDrag (o : BemOpts) (cd : ℝ → ℝ) (phi : ℝ) : ℝ := if o.useCd then cd phi else 0

/-- `tan φ/(1-a)`. -/
noncomputable def sectionWake (o : BemOpts) (B : ℕ) (r chord Rhub Rtip : ℝ) (cl cd : ℝ → ℝ) (phi : ℝ) : ℝ :=
  let F := lossSpec o B r Rhub Rtip phi
  tan phi * wakeOf F (forceK F (B * chord / (2 * π * r) / 4 * (cl phi + usedDrag o cd phi * tan phi)) phi)

/-- The swirl parameter; none without wake rotation. -/
noncomputable def sectionSwirl (o : BemOpts) (B : ℕ) (r chord Rhub Rtip : ℝ) (cl cd : ℝ → ℝ) (phi : ℝ) : ℝ :=
  let F := lossSpec o B r Rhub Rtip phi
  if o.wakeRot then B * chord / (2 * π * r) / 4 * (cl phi / (F * cos phi) - usedDrag o cd phi / (F * sin phi)) else 0

/-- The residual divided by `cos φ`, up to the constant `Vx/Vy`. -/
noncomputable def sectionSide (o : BemOpts) (B : ℕ) (r chord Rhub Rtip Vx Vy : ℝ) (cl cd : ℝ → ℝ) (phi : ℝ) : ℝ :=
  sectionWake o B r chord Rhub Rtip cl cd phi + Vx / Vy * sectionSwirl o B r chord Rhub Rtip cl cd phi

theorem kSpec_forceK (hB : 0 < B) (hRhub : 0 < Rhub) (h1 : Rhub < r) (h2 : r < Rtip) {p : ℝ} (hp : 0 < p) (hp2 : p < π / 2) :
    kSpec o B r chord Rhub Rtip p (cl p) (cd p) = forceK (lossSpec o B r Rhub Rtip p)
      (B * chord / (2 * π * r) / 4 * (cl p + usedDrag o cd p * tan p)) p := by
  have hF := (lossSpec_range o B hB r Rhub Rtip p hRhub h1 h2 hp (by linarith [pi_pos])).1
  have hs : 0 < sin p := sin_pos_of_pos_of_lt_pi hp (by linarith [pi_pos])
  have hc : 0 < cos p := cos_pos_of_mem_Ioo ⟨by linarith [pi_pos], hp2⟩
  unfold kSpec cnSpec forceK usedDrag
  rw [tan_eq_sin_div_cos]
  generalize (if o.useCd = true then cd p else 0) = d
  generalize lossSpec o B r Rhub Rtip p = F at *
  field_simp

theorem sectionSwirl_eq (hB : 0 < B) (hRhub : 0 < Rhub) (h1 : Rhub < r) (h2 : r < Rtip) {p : ℝ} (hp : 0 < p) (hp2 : p < π / 2) :
    sectionSwirl o B r chord Rhub Rtip cl cd p = if o.wakeRot then kpSpec o B r chord Rhub Rtip p (cl p) (cd p) else 0 := by
  have hF := (lossSpec_range o B hB r Rhub Rtip p hRhub h1 h2 hp (by linarith [pi_pos])).1
  have hs : 0 < sin p := sin_pos_of_pos_of_lt_pi hp (by linarith [pi_pos])
  have hc : 0 < cos p := cos_pos_of_mem_Ioo ⟨by linarith [pi_pos], hp2⟩
  unfold sectionSwirl kpSpec ctSpec usedDrag
  generalize (if o.useCd = true then cd p else 0) = d
  generalize lossSpec o B r Rhub Rtip p = F at *
  split_ifs
  · field_simp
  · rfl

theorem residual_side (hB : 0 < B) (hRhub : 0 < Rhub) (h1 : Rhub < r) (h2 : r < Rtip) (hVy : 0 < Vy) {p : ℝ} (hp : 0 < p)
    (hp2 : p < π / 2) (hreg : RegularK (lossSpec o B r Rhub Rtip p) (kSpec o B r chord Rhub Rtip p (cl p) (cd p))) :
    (inductionFactors r chord Rhub Rtip p (cl p) (cd p) B Vx Vy o).fzero
      = cos p * (sectionSide o B r chord Rhub Rtip Vx Vy cl cd p - Vx / Vy) := by
  have hF := (lossSpec_range o B hB r Rhub Rtip p hRhub h1 h2 hp (by linarith [pi_pos])).1
  have hc : 0 < cos p := cos_pos_of_mem_Ioo ⟨by linarith [pi_pos], hp2⟩
  obtain ⟨-, -, h⟩ := indOut_eq r chord Rhub Rtip p (cl p) (cd p) B Vx Vy o
  rw [h]
  have hw := inv_axial_wake hp hF hreg.1 hreg.2
  simp only [bemResidual, if_pos hp]
  rw [div_eq_mul_one_div (sin p), hw, kSpec_forceK hB hRhub h1 h2 hp hp2, ← sectionSwirl_eq hB hRhub h1 h2 hp hp2]
  unfold sectionSide sectionWake
  simp only
  generalize wakeOf _ _ = w
  generalize sectionSwirl _ _ _ _ _ _ _ _ _ = K
  have ht : sin p = cos p * tan p := by rw [tan_eq_sin_div_cos]; field_simp
  rw [ht]
  field_simp
  ring

/-- The residual at 90° is positive. -/
theorem residual_end (hB : 0 < B) (hRhub : 0 < Rhub) (h1 : Rhub < r) (h2 : r < Rtip) (hc : 0 < chord)
    (hatt : AttachedFlow o B r Rhub Rtip cl cd)
    (hr : RegularK (lossSpec o B r Rhub Rtip (π / 2)) (kSpec o B r chord Rhub Rtip (π / 2) (cl (π / 2)) (cd (π / 2)))) :
    0 < (inductionFactors r chord Rhub Rtip (π / 2) (cl (π / 2)) (cd (π / 2)) B Vx Vy o).fzero := by
  obtain ⟨-, -, h⟩ := indOut_eq r chord Rhub Rtip (π / 2) (cl (π / 2)) (cd (π / 2)) B Vx Vy o
  rw [h]
  have hpi := pi_pos
  have hF := lossSpec_range o B hB r Rhub Rtip (π / 2) hRhub h1 h2 (by linarith) (by linarith)
  have hw := inv_axial_wake (phi := π / 2) (by linarith) hF.1 hr.1 hr.2
  simp only [bemResidual, if_pos (show 0 < π / 2 by linarith), sin_pi_div_two, cos_pi_div_two, zero_div, zero_mul, sub_zero]
  rw [hw]
  have hk : 0 ≤ kSpec o B r chord Rhub Rtip (π / 2) (cl (π / 2)) (cd (π / 2)) := by
    have hr' : 0 < r := hRhub.trans h1
    have hd : 0 ≤ (if o.useCd = true then cd (π / 2) else 0) := by
      split_ifs with hu
      · exact (hatt.drag hu (by linarith) le_rfl le_rfl).1
      · exact le_rfl
    have hF0 := hF.1
    unfold kSpec cnSpec
    rw [sin_pi_div_two, cos_pi_div_two]
    simp only [mul_zero, zero_add, mul_one]
    positivity
  calc (0 : ℝ) < 1 := one_pos
    _ = wakeOf (lossSpec o B r Rhub Rtip (π / 2)) 0 := by rw [wakeOf, if_pos (by norm_num)]; norm_num
    _ ≤ _ := wakeOf_mono hF.1 hk

section
variable {p q : ℝ}

private theorem usedDrag_mono (hatt : AttachedFlow o B r Rhub Rtip cl cd) (hp : 0 < p) (hpq : p ≤ q) (hq : q < π / 2) :
    0 ≤ usedDrag o cd p ∧ usedDrag o cd p ≤ usedDrag o cd q := by
  unfold usedDrag
  split_ifs with hu
  · exact hatt.drag hu hp hpq hq.le
  · exact ⟨le_rfl, le_rfl⟩

theorem sectionWake_lt (hB : 0 < B) (hRhub : 0 < Rhub) (h1 : Rhub < r) (h2 : r < Rtip) (hc : 0 < chord)
    (hatt : AttachedFlow o B r Rhub Rtip cl cd) (hp : 0 < p) (hpq : p < q) (hq : q < π / 2) (hcl : 0 ≤ cl q) :
    sectionWake o B r chord Rhub Rtip cl cd p < sectionWake o B r chord Rhub Rtip cl cd q := by
  have hr : 0 < r := hRhub.trans h1
  have hB' : (0 : ℝ) < B := by exact_mod_cast hB
  have hpi := pi_pos
  have hq0 := hp.trans hpq
  have hFp := lossSpec_range o B hB r Rhub Rtip p hRhub h1 h2 hp (by linarith)
  have hFq := lossSpec_range o B hB r Rhub Rtip q hRhub h1 h2 hq0 (by linarith)
  have hF := lossSpec_anti (o := o) hB hRhub h1 h2 hp hpq.le hq.le
  have hl := hatt.lift hp hpq.le hq.le
  have htp : 0 < tan p := tan_pos_of_pos_of_lt_pi_div_two hp (by linarith)
  have htq : tan p < tan q := tan_lt_tan_of_nonneg_of_lt_pi_div_two hp.le hq hpq
  have hd := usedDrag_mono hatt hp hpq.le hq
  have hsig : 0 < (B * chord / (2 * π * r) / 4 : ℝ) := by positivity
  have hd' : usedDrag o cd p * tan p ≤ usedDrag o cd q * tan q := mul_le_mul hd.2 htq.le htp.le (hd.1.trans hd.2)
  exact wakeOf_section (F1 := lossSpec o B r Rhub Rtip p) (F2 := lossSpec o B r Rhub Rtip q)
    (A1 := B * chord / (2 * π * r) / 4 * (cl p + usedDrag o cd p * tan p))
    (A2 := B * chord / (2 * π * r) / 4 * (cl q + usedDrag o cd q * tan q)) hFq.1 hF hFp.2
    (mul_le_mul_of_nonneg_left (by linarith) hsig.le)
    (mul_nonneg hsig.le (add_nonneg hcl (mul_nonneg (hd.1.trans hd.2) (htp.trans htq).le))) hp hpq hq

theorem sectionWake_pos (hB : 0 < B) (hRhub : 0 < Rhub) (h1 : Rhub < r) (h2 : r < Rtip) (hc : 0 < chord)
    (hatt : AttachedFlow o B r Rhub Rtip cl cd) (hp : 0 < p) (hp2 : p < π / 2) (hcl : 0 ≤ cl p) :
    0 < sectionWake o B r chord Rhub Rtip cl cd p := by
  have hr : 0 < r := hRhub.trans h1
  have hpi := pi_pos
  have hF := lossSpec_range o B hB r Rhub Rtip p hRhub h1 h2 hp (by linarith)
  have ht : 0 < tan p := tan_pos_of_pos_of_lt_pi_div_two hp hp2
  have hs : 0 < sin p := sin_pos_of_pos_of_lt_pi hp (by linarith)
  have hcos : 0 < cos p := cos_pos_of_mem_Ioo ⟨by linarith, hp2⟩
  have hd := (usedDrag_mono hatt hp le_rfl hp2).1
  have hk : 0 ≤ forceK (lossSpec o B r Rhub Rtip p) (B * chord / (2 * π * r) / 4 * (cl p + usedDrag o cd p * tan p)) p := by
    have hF0 := hF.1
    unfold forceK
    positivity
  refine mul_pos ht (lt_of_lt_of_le one_pos ?_)
  calc (1 : ℝ) = wakeOf (lossSpec o B r Rhub Rtip p) 0 := by rw [wakeOf, if_pos (by norm_num)]; norm_num
    _ ≤ _ := wakeOf_mono hF.1 hk

theorem sectionSwirl_mono (hB : 0 < B) (hRhub : 0 < Rhub) (h1 : Rhub < r) (h2 : r < Rtip) (hc : 0 < chord)
    (hatt : AttachedFlow o B r Rhub Rtip cl cd) (hp : 0 < p) (hpq : p ≤ q) (hq : q < π / 2) (hcl : 0 ≤ cl q) :
    sectionSwirl o B r chord Rhub Rtip cl cd p ≤ sectionSwirl o B r chord Rhub Rtip cl cd q := by
  have hr : 0 < r := hRhub.trans h1
  have hpi := pi_pos
  have hq0 := hp.trans_le hpq
  have hFp := lossSpec_range o B hB r Rhub Rtip p hRhub h1 h2 hp (by linarith)
  have hFq := lossSpec_range o B hB r Rhub Rtip q hRhub h1 h2 hq0 (by linarith)
  have hF := lossSpec_anti (o := o) hB hRhub h1 h2 hp hpq hq.le
  have hl := hatt.lift hp hpq hq.le
  have hcq : 0 < cos q := cos_pos_of_mem_Ioo ⟨by linarith, hq⟩
  have hcpq : cos q ≤ cos p := cos_le_cos_of_nonneg_of_le_pi hp.le (by linarith) hpq
  have hsig : 0 < (B * chord / (2 * π * r) / 4 : ℝ) := by positivity
  unfold sectionSwirl
  simp only
  split_ifs with hw
  · refine mul_le_mul_of_nonneg_left ?_ hsig.le
    refine sub_le_sub ?_ ?_
    · rcases le_or_gt (cl p) 0 with h | h
      · exact (div_nonpos_of_nonpos_of_nonneg h (mul_nonneg hFp.1.le (hcq.le.trans hcpq))).trans
          (div_nonneg hcl (mul_nonneg hFq.1.le hcq.le))
      · exact div_le_div₀ hcl hl (mul_pos hFq.1 hcq) (mul_le_mul hF hcpq hcq.le hFp.1.le)
    · unfold usedDrag
      split_ifs with hu
      · exact hatt.swirl hu hw hp hpq hq.le
      · simp
  · exact le_rfl

theorem sectionSide_lt (hB : 0 < B) (hRhub : 0 < Rhub) (h1 : Rhub < r) (h2 : r < Rtip) (hc : 0 < chord) (hVx : 0 < Vx) (hVy : 0 < Vy)
    (hatt : AttachedFlow o B r Rhub Rtip cl cd) (hp : 0 < p) (hpq : p < q) (hq : q < π / 2) (hcl : 0 ≤ cl q) :
    sectionSide o B r chord Rhub Rtip Vx Vy cl cd p < sectionSide o B r chord Rhub Rtip Vx Vy cl cd q :=
  add_lt_add_of_lt_of_le (sectionWake_lt hB hRhub h1 h2 hc hatt hp hpq hq hcl)
    (mul_le_mul_of_nonneg_left (sectionSwirl_mono hB hRhub h1 h2 hc hatt hp hpq.le hq hcl) (by positivity))

end

/-! ## C112 -/

/-- **C112** In attached flow the residual of `inductionFactors` is negative below a solution with lift and positive above it, up
to 90°: whatever the losses and options, there is no other solution. -/
theorem attached_sign (hB : 0 < B) (hRhub : 0 < Rhub) (h1 : Rhub < r) (h2 : r < Rtip) (hc : 0 < chord) (hVx : 0 < Vx) (hVy : 0 < Vy)
    (hatt : AttachedFlow o B r Rhub Rtip cl cd) {phi : ℝ} (hphi : phi ∈ Set.Ioo 0 (π / 2))
    (hroot : (inductionFactors r chord Rhub Rtip phi (cl phi) (cd phi) B Vx Vy o).fzero = 0)
    (hreg : RegularK (lossSpec o B r Rhub Rtip phi) (kSpec o B r chord Rhub Rtip phi (cl phi) (cd phi))) (hcl : 0 ≤ cl phi) :
    (∀ p, 0 < p → p < phi → RegularK (lossSpec o B r Rhub Rtip p) (kSpec o B r chord Rhub Rtip p (cl p) (cd p)) →
      (inductionFactors r chord Rhub Rtip p (cl p) (cd p) B Vx Vy o).fzero < 0) ∧
    (∀ q, phi < q → q ≤ π / 2 → RegularK (lossSpec o B r Rhub Rtip q) (kSpec o B r chord Rhub Rtip q (cl q) (cd q)) →
      0 < (inductionFactors r chord Rhub Rtip q (cl q) (cd q) B Vx Vy o).fzero) := by
  have hcos : ∀ {x}, 0 < x → x < π / 2 → 0 < cos x := fun h h' => cos_pos_of_mem_Ioo ⟨by linarith [pi_pos], h'⟩
  have e := residual_side (Vx := Vx) (cl := cl) (cd := cd) hB hRhub h1 h2 hVy hphi.1 hphi.2 hreg
  rw [hroot] at e
  have e0 : sectionSide o B r chord Rhub Rtip Vx Vy cl cd phi = Vx / Vy := by
    have := (mul_eq_zero.mp e.symm).resolve_left (hcos hphi.1 hphi.2).ne'
    linarith
  constructor
  · intro p hp hpphi hr
    rw [residual_side hB hRhub h1 h2 hVy hp (hpphi.trans hphi.2) hr]
    have := sectionSide_lt hB hRhub h1 h2 hc hVx hVy hatt hp hpphi hphi.2 hcl
    exact mul_neg_of_pos_of_neg (hcos hp (hpphi.trans hphi.2)) (by linarith)
  · intro q hq hq2 hr
    rcases hq2.eq_or_lt with rfl | hq2
    · exact residual_end hB hRhub h1 h2 hc hatt hr
    · have hq0 := hphi.1.trans hq
      rw [residual_side hB hRhub h1 h2 hVy hq0 hq2 hr]
      have := sectionSide_lt hB hRhub h1 h2 hc hVx hVy hatt hphi.1 hq hq2 (hcl.trans (hatt.lift hphi.1 hq.le hq2.le))
      exact mul_pos (hcos hq0 hq2) (by linarith)

/-- A section at 45° with tip and hub losses, drag and wake rotation meets the hypotheses. -/
example : ∃ Vx : ℝ, 0 < Vx ∧ AttachedFlow ⟨true, true, true, true⟩ 3 10 1 20 (fun p => 1 + p) (fun _ => 1 / 100) ∧
    (inductionFactors 10 1 1 20 (π / 4) (1 + π / 4) (1 / 100) 3 Vx 1 ⟨true, true, true, true⟩).fzero = 0 ∧
    RegularK (lossSpec ⟨true, true, true, true⟩ 3 10 1 20 (π / 4)) (kSpec ⟨true, true, true, true⟩ 3 10 1 1 20 (π / 4) (1 + π / 4) (1 / 100)) := by
  have hpi := pi_gt_three
  have hpi4 := pi_lt_four
  have hatt : AttachedFlow ⟨true, true, true, true⟩ 3 10 1 20 (fun p => 1 + p) (fun _ => 1 / 100) :=
    attachedFlow_of_constant_drag (by norm_num) (by norm_num) (by norm_num) (by norm_num) (fun _ h _ => by linarith)
      fun _ => ⟨1 / 100, by norm_num, fun _ _ _ => rfl⟩
  have hF1 := (lossSpec_range ⟨true, true, true, true⟩ 3 (by norm_num) 10 1 20 (π / 4) (by norm_num) (by norm_num) (by norm_num) (by linarith) (by linarith))
  have hs2 : (7 / 10 : ℝ) < √2 / 2 ∧ √2 / 2 < 71 / 100 := by
    constructor
    · have : (7 / 5 : ℝ) < √2 := by rw [Real.lt_sqrt (by norm_num)]; norm_num
      linarith
    · have : √2 < (142 / 100 : ℝ) := by rw [Real.sqrt_lt' (by norm_num)]; norm_num
      linarith
  have hp : ∀ d R : ℝ, 0 < R → R ≤ d → 2 / 3 ≤ prandtl 3 d R (π / 4) := by
    intro d R hR hd
    have h1 : exp (-((3 : ℕ) / 2 * d / (R * sin (π / 4)))) ≤ 1 / 2 := by
      rw [sin_pi_div_four]
      have h2 : (1 : ℝ) ≤ (3 : ℕ) / 2 * d / (R * (√2 / 2)) := by
        rw [le_div_iff₀ (by positivity)]
        push_cast
        nlinarith
      calc exp (-((3 : ℕ) / 2 * d / (R * (√2 / 2)))) ≤ exp (-1) := exp_le_exp.mpr (by linarith)
        _ ≤ 1 / 2 := by
          rw [exp_neg, inv_le_comm₀ (exp_pos _) (by norm_num)]
          linarith [add_one_le_exp (1 : ℝ)]
    have h3 : π / 3 ≤ arccos (exp (-((3 : ℕ) / 2 * d / (R * sin (π / 4))))) := by
      rw [← arccos_cos (x := π / 3) (by linarith) (by linarith), cos_pi_div_three]
      exact arccos_le_arccos h1
    unfold prandtl
    calc (2 / 3 : ℝ) = 2 / π * (π / 3) := by field_simp
      _ ≤ _ := by gcongr
  have hF : 4 / 9 ≤ lossSpec ⟨true, true, true, true⟩ 3 10 1 20 (π / 4) := by
    unfold lossSpec
    simp only [if_true]
    nlinarith [hp (20 - 10) 10 (by norm_num) (by norm_num), hp (10 - 1) 1 (by norm_num) (by norm_num)]
  have hsig : 0 < (3 * 1 / (2 * π * 10) : ℝ) ∧ (3 * 1 / (2 * π * 10) : ℝ) < 1 / 20 := by
    refine ⟨by positivity, ?_⟩
    rw [div_lt_div_iff₀ (by positivity) (by norm_num)]
    linarith
  have hk : 0 < kSpec ⟨true, true, true, true⟩ 3 10 1 1 20 (π / 4) (1 + π / 4) (1 / 100) ∧
      kSpec ⟨true, true, true, true⟩ 3 10 1 1 20 (π / 4) (1 + π / 4) (1 / 100) < 1 / 2 := by
    unfold kSpec cnSpec
    simp only [if_true, sin_pi_div_four, cos_pi_div_four]
    push_cast
    generalize lossSpec ⟨true, true, true, true⟩ 3 10 1 20 (π / 4) = F at *
    generalize (3 * 1 / (2 * π * 10) : ℝ) = g at *
    generalize √2 / 2 = c at *
    have h0 : 0 < (1 + π / 4) * c + 1 / 100 * c := by nlinarith
    have h1 : (1 + π / 4) * c + 1 / 100 * c < 2 := by nlinarith
    have hc : 49 / 100 < c ^ 2 := by nlinarith
    have hF0 : 0 < F := by linarith
    have hFc : 4 / 9 * (49 / 100) < F * c ^ 2 := by nlinarith
    refine ⟨div_pos (mul_pos hsig.1 h0) (by nlinarith), ?_⟩
    rw [div_lt_iff₀ (by nlinarith)]
    nlinarith
  have hkp : kpSpec ⟨true, true, true, true⟩ 3 10 1 1 20 (π / 4) (1 + π / 4) (1 / 100) < 1 / 2 := by
    unfold kpSpec ctSpec
    simp only [if_true, sin_pi_div_four, cos_pi_div_four]
    push_cast
    generalize lossSpec ⟨true, true, true, true⟩ 3 10 1 20 (π / 4) = F at *
    generalize (3 * 1 / (2 * π * 10) : ℝ) = g at *
    generalize √2 / 2 = c at *
    have h1 : (1 + π / 4) * c - 1 / 100 * c < 2 := by nlinarith
    have h0 : 0 < (1 + π / 4) * c - 1 / 100 * c := by nlinarith
    have hc : 49 / 100 < c * c := by nlinarith
    have hF0 : 0 < F := by linarith
    have hFc : 4 / 9 * (49 / 100) < F * (c * c) := by nlinarith
    rw [div_lt_iff₀ (by nlinarith)]
    nlinarith
  have hreg : RegularK (lossSpec ⟨true, true, true, true⟩ 3 10 1 20 (π / 4)) (kSpec ⟨true, true, true, true⟩ 3 10 1 1 20 (π / 4) (1 + π / 4) (1 / 100)) :=
    ⟨by linarith, fun h => by linarith⟩
  generalize hkd : kSpec ⟨true, true, true, true⟩ 3 10 1 1 20 (π / 4) (1 + π / 4) (1 / 100) = k at *
  generalize hkpd : kpSpec ⟨true, true, true, true⟩ 3 10 1 1 20 (π / 4) (1 + π / 4) (1 / 100) = kp at *
  refine ⟨(1 + k) / (1 - kp), div_pos (by linarith) (by linarith), hatt, ?_, hreg⟩
  obtain ⟨-, -, h⟩ := indOut_eq 10 1 1 20 (π / 4) (1 + π / 4) (1 / 100) 3 ((1 + k) / (1 - kp)) 1 ⟨true, true, true, true⟩
  rw [h, hkd, hkpd]
  simp only [bemResidual, if_pos (show 0 < π / 4 by linarith), if_true]
  rw [div_eq_mul_one_div (sin (π / 4)), inv_axial_momentum (by linarith) (by linarith) (by linarith), sin_pi_div_four, cos_pi_div_four]
  have : 1 - kp ≠ 0 := by linarith
  have : 1 + k ≠ 0 := by linarith
  field_simp
  ring

end

/-! ## The rotor -/

/-- Reynolds number of station `i` in the undisturbed wind. -/
noncomputable def stationRe (R : Rotor ℝ) (Uinf Omega az : ℝ) (i : ℕ) : ℝ :=
  let V := rotorWind R Uinf Omega (az * (π / 180)) i
  R.rho * √(V.1 ^ 2 + V.2 ^ 2) * R.chord i / R.mu

/-- Lift and drag coefficient of station `i` as functions of the inflow angle, at the Reynolds number of the undisturbed wind. -/
noncomputable def stationPolar (R : Rotor ℝ) (Uinf Omega pitch az : ℝ) (i : ℕ) (phi : ℝ) : ℝ × ℝ :=
  (R.af i).evaluate (phi - (R.theta i + pitch * (π / 180))) (stationRe R Uinf Omega az i)

/-- The station lies on the blade, sees wind from the front and in its sense of rotation, and its flow is attached. -/
structure AttachedStation (R : Rotor ℝ) (Uinf Omega pitch az : ℝ) (i : ℕ) : Prop where
  blades : 0 < R.B
  hub : 0 < R.Rhub
  inner : R.Rhub < R.r i
  outer : R.r i < R.Rtip
  chord : 0 < R.chord i
  front : 0 < (rotorWind R Uinf Omega (az * (π / 180)) i).1
  sense : 0 < (rotorWind R Uinf Omega (az * (π / 180)) i).2
  flow : AttachedFlow R.opts R.B (R.r i) R.Rhub R.Rtip (fun p => (stationPolar R Uinf Omega pitch az i p).1)
    (fun p => (stationPolar R Uinf Omega pitch az i p).2)

/-- Neither division by zero nor the guard of Buhl's formula at an inflow angle of a station. -/
def RegularAngle (R : Rotor ℝ) (Uinf Omega pitch az : ℝ) (i : ℕ) (phi : ℝ) : Prop :=
  RegularK (lossSpec R.opts R.B (R.r i) R.Rhub R.Rtip phi) (kSpec R.opts R.B (R.r i) (R.chord i) R.Rhub R.Rtip phi
    (stationPolar R Uinf Omega pitch az i phi).1 (stationPolar R Uinf Omega pitch az i phi).2)

section
variable {R : Rotor ℝ} {Uinf Omega pitch az : ℝ} {i : ℕ}

theorem stationResidual_polar (hinv : R.inv = none) (hit : R.iterRe = 1) (phi : ℝ) :
    stationResidual R Uinf Omega pitch az i phi = (inductionFactors (R.r i) (R.chord i) R.Rhub R.Rtip phi
      (stationPolar R Uinf Omega pitch az i phi).1 (stationPolar R Uinf Omega pitch az i phi).2 R.B
      (rotorWind R Uinf Omega (az * (π / 180)) i).1 (rotorWind R Uinf Omega (az * (π / 180)) i).2 R.opts).fzero := by
  have hW : ∀ Vx Vy : ℝ, relSpeed phi 0 0 Vx Vy = √(Vx ^ 2 + Vy ^ 2) := by
    intro Vx Vy
    have h : ¬ (10 : ℝ) < 0 := by norm_num
    simp [relSpeed, num_real, sq, h, pow_two]
  simp only [stationResidual, hinv, real_deg2rad, errFun, runBEM, hit, Nat.sub_self, bemPasses, bemPass, relativeWind, hW, stationPolar, stationRe]

/-- **C112** At a station with attached flow the residual the search sees is negative below a solution with lift and positive
above it; with regular ends the search takes the interval up to 90°, over which the sign changes. -/
theorem attached_station (hinv : R.inv = none) (hit : R.iterRe = 1) (hatt : AttachedStation R Uinf Omega pitch az i) {phi : ℝ}
    (hphi : phi ∈ Set.Ioo 0 (π / 2)) (hroot : stationResidual R Uinf Omega pitch az i phi = 0)
    (hlift : 0 ≤ (stationPolar R Uinf Omega pitch az i phi).1) (hreg : RegularAngle R Uinf Omega pitch az i phi) :
    (∀ p, 0 < p → p < phi → RegularAngle R Uinf Omega pitch az i p → stationResidual R Uinf Omega pitch az i p < 0) ∧
    (∀ q, phi < q → q ≤ π / 2 → RegularAngle R Uinf Omega pitch az i q → 0 < stationResidual R Uinf Omega pitch az i q) ∧
    (1 / 1000000 < phi → RegularAngle R Uinf Omega pitch az i (1 / 1000000) → RegularAngle R Uinf Omega pitch az i (π / 2) →
      bracket (stationResidual R Uinf Omega pitch az i) = (1 / 1000000, π / 2)) := by
  have e := fun x => stationResidual_polar (R := R) (Uinf := Uinf) (Omega := Omega) (pitch := pitch) (az := az) (i := i) hinv hit x
  rw [e] at hroot
  have key := attached_sign hatt.blades hatt.hub hatt.inner hatt.outer hatt.chord hatt.front hatt.sense hatt.flow hphi hroot hreg hlift
  have k1 : ∀ p, 0 < p → p < phi → RegularAngle R Uinf Omega pitch az i p → stationResidual R Uinf Omega pitch az i p < 0 := by
    intro p h0 h1 h2
    rw [e]
    exact key.1 p h0 h1 h2
  have k2 : ∀ q, phi < q → q ≤ π / 2 → RegularAngle R Uinf Omega pitch az i q → 0 < stationResidual R Uinf Omega pitch az i q := by
    intro q h0 h1 h2
    rw [e]
    exact key.2 q h0 h1 h2
  refine ⟨k1, k2, fun h0 h1 h2 => (bracket_choice _).1 ?_⟩
  exact (mul_neg_of_neg_of_pos (k1 _ (by norm_num) h0 h1) (k2 _ hphi.2 le_rfl h2)).le

/-- The interval behind an angle reported without warning. -/
theorem exact_interval {bq : RootFinder ℝ} (hbq : ExactRoots bq) {R' : Rotor ℝ} {L : LoadsOut ℝ}
    (h : distributedAeroLoads bq R Uinf Omega pitch az = (R', .ok L)) (hO : Omega ≠ 0) {s : Station ℝ}
    (hs : L.stations[i]? = some s) (hw : s.warned = false) :
    stationResidual R Uinf Omega pitch az i s.phi = 0 ∧ (bracket (stationResidual R Uinf Omega pitch az i)).1 ≤ s.phi ∧
      s.phi ≤ (bracket (stationResidual R Uinf Omega pitch az i)).2 := by
  obtain ⟨d, h1, -⟩ := solveStation_real (loads_station h hs).2
  have hf : stationErrf R (deg2rad pitch) (rotorWind R Uinf Omega (deg2rad az)) i = stationResidual R Uinf Omega pitch az i := rfl
  unfold stationPhi at h1
  rw [if_neg (by simpa using hO), hf] at h1
  split_ifs at h1
  unfold solvePhi at h1
  simp only at h1
  split at h1
  · rename_i p hp
    simp only [Except.ok.injEq, Prod.mk.injEq] at h1
    rw [h1.1] at hp
    exact hbq _ _ _ _ hp
  · simp only [Except.ok.injEq, Prod.mk.injEq] at h1
    rw [hw] at h1
    exact absurd h1.2 (by simp)
  · cases h1

/-- **C112** The result at a station with attached flow does not depend on how the root is searched: two exact root finders report
the same angle, loads, coefficients and derivatives when one of them finds a solution with lift. -/
theorem attached_unique (bq bq' : RootFinder ℝ) (hbq : ExactRoots bq) (hbq' : ExactRoots bq') (hinv : R.inv = none) (hit : R.iterRe = 1)
    (hO : Omega ≠ 0) (hatt : AttachedStation R Uinf Omega pitch az i) (R1 R2 : Rotor ℝ) (L L' : LoadsOut ℝ)
    (h : distributedAeroLoads bq R Uinf Omega pitch az = (R1, .ok L)) (h' : distributedAeroLoads bq' R Uinf Omega pitch az = (R2, .ok L'))
    (s s' : Station ℝ) (hs : L.stations[i]? = some s) (hs' : L'.stations[i]? = some s') (hw : s.warned = false) (hw' : s'.warned = false)
    (hphi : s.phi ∈ Set.Ioo 0 (π / 2)) (hlift : 0 ≤ (stationPolar R Uinf Omega pitch az i s.phi).1)
    (hreg : RegularAngle R Uinf Omega pitch az i s.phi) (hreg' : RegularAngle R Uinf Omega pitch az i s'.phi) : s' = s := by
  obtain ⟨z, l, u⟩ := exact_interval hbq h hO hs hw
  obtain ⟨z', l', u'⟩ := exact_interval hbq' h' hO hs' hw'
  have hpi := pi_pos
  have hb := bracket_searchInterval (stationResidual R Uinf Omega pitch az i)
  simp only [SearchInterval, num_real] at hb
  push_cast at hb
  have hpos : 0 < s'.phi ∧ s'.phi ≤ π / 2 := by
    obtain ⟨p0, p1⟩ := hphi
    rcases hb with hb | hb | hb <;> rw [hb] at l u l' u' <;> simp only at l u l' u'
    · exact ⟨by linarith, by linarith⟩
    · linarith
    · linarith
  obtain ⟨k1, k2, -⟩ := attached_station hinv hit hatt hphi z hlift hreg
  have heq : s'.phi = s.phi := by
    rcases lt_trichotomy s'.phi s.phi with hlt | heq | hlt
    · linarith [k1 _ hpos.1 hlt hreg']
    · exact heq
    · linarith [k2 _ hlt hpos.2 hreg']
  have e1 := (loads_station h hs).2
  have e2 := (loads_station h' hs').2
  obtain ⟨d, a1, -⟩ := solveStation_real e1
  obtain ⟨d', a2, -⟩ := solveStation_real e2
  have e3 : solveStation bq' R (deg2rad pitch) Omega (rotorWind R Uinf Omega (deg2rad az)) i
      = solveStation bq R (deg2rad pitch) Omega (rotorWind R Uinf Omega (deg2rad az)) i := by
    unfold solveStation
    rw [a1, a2, heq, hw, hw']
  rw [e3, e1] at e2
  exact (Except.ok.inj e2).symm

/-- **C112** Attached flow is a sufficient condition for the uniqueness that makes the loads continuous (C111). -/
theorem attached_sole (hinv : R.inv = none) (hit : R.iterRe = 1) (D : ℝ → Design) (t : ℝ)
    (hatt : AttachedStation ((D t).rotor R) (D t).Uinf (D t).Omega (D t).pitch (D t).azimuth i) {phi : ℝ}
    (hphi : phi ∈ Set.Ioo (1 / 1000000) (π / 2)) (hroot : ((D t).sec R.n i phi).residual R (R.af i) = 0)
    (hlift : 0 ≤ (stationPolar ((D t).rotor R) (D t).Uinf (D t).Omega (D t).pitch (D t).azimuth i phi).1)
    (hreg : ∀ p ∈ Set.Icc (1 / 1000000) (π / 2), RegularAngle ((D t).rotor R) (D t).Uinf (D t).Omega (D t).pitch (D t).azimuth i p)
    (hjoint : ∀ p ∈ Set.Icc (1 / 1000000) (π / 2), ContinuousAt (fun z : ℝ × ℝ => ((D z.1).sec R.n i z.2).residual R (R.af i)) (t, p))
    (hnear : ∀ᶠ s in nhds t, ContinuousOn (fun p => ((D s).sec R.n i p).residual R (R.af i)) (Set.Icc (1 / 1000000) (π / 2))) :
    SoleSolution (fun s p => ((D s).sec R.n i p).residual R (R.af i)) t phi := by
  have e : ∀ p, ((D t).sec R.n i p).residual R (R.af i) =
      stationResidual ((D t).rotor R) (D t).Uinf (D t).Omega (D t).pitch (D t).azimuth i p := fun p =>
    (Design.stationResidual_eq hinv (D t) i p).symm
  rw [e] at hroot
  have h0 : (0 : ℝ) < 1 / 1000000 := by norm_num
  have hle : (1 / 1000000 : ℝ) ≤ π / 2 := by linarith [pi_gt_three]
  obtain ⟨k1, k2, -⟩ := attached_station (R := (D t).rotor R) hinv hit hatt ⟨h0.trans hphi.1, hphi.2⟩ hroot hlift (hreg phi ⟨hphi.1.le, hphi.2.le⟩)
  refine ⟨?_, hjoint, hnear, fun p hp hz => ?_⟩
  · simp only [e]
    exact mul_neg_of_neg_of_pos (k1 _ h0 hphi.1 (hreg _ ⟨le_rfl, hle⟩)) (k2 _ hphi.2 le_rfl (hreg _ ⟨hle, le_rfl⟩))
  · rw [e] at hz
    rcases lt_trichotomy p phi with hlt | heq | hlt
    · linarith [k1 p (h0.trans_le hp.1) hlt (hreg p hp)]
    · exact heq
    · linarith [k2 p hlt hp.2 (hreg p hp)]

end

/-- Without losses the guard is never met. -/
theorem regularK_lossless {k : ℝ} (hk : -1 < k) : RegularK 1 k := by
  refine ⟨by linarith, fun h => ?_⟩
  rw [abs_of_nonneg (by linarith)]
  linarith

/-- Constant lift, a solution at 45°. -/
noncomputable def evenRotor : Rotor ℝ := annulusRotor (fun i => 60 + 10 * i) (fun _ => √2 * π) (fun _ => 1) 5 80

theorem evenRotor_wind (az : ℝ) : rotorWind evenRotor (243 / 4) (30 / π) (az * (π / 180)) 0 = (243 / 4, 60) := by
  have hV := (annulusRotor_straight (r := fun i => 60 + 10 * i) (chord := fun _ => √2 * π) (cl := fun _ => 1) (Rhub := 5) (Rtip := 80)
    (by norm_num) (by norm_num) (by norm_num) (by norm_num)).wind (243 / 4) (30 / π) (az * (π / 180)) (i := 0) (by simp [annulusRotor])
  unfold evenRotor
  rw [hV]
  simp [annulusRotor, demoRotor, pi_ne_zero]

theorem evenRotor_k (phi : ℝ) : kSpec evenRotor.opts evenRotor.B (evenRotor.r 0) (evenRotor.chord 0) evenRotor.Rhub evenRotor.Rtip phi 1 0
    = √2 / 40 * (cos phi / (4 * sin phi ^ 2)) := by
  have hpi := pi_ne_zero
  unfold kSpec cnSpec lossSpec
  simp [evenRotor, annulusRotor, demoRotor]
  field_simp
  ring

theorem evenRotor_regular (az : ℝ) {phi : ℝ} (h0 : 0 < phi) (h1 : phi ≤ π / 2) : RegularAngle evenRotor (243 / 4) (30 / π) 0 az 0 phi := by
  have hc : 0 ≤ cos phi := cos_nonneg_of_mem_Icc ⟨by linarith [pi_pos], h1⟩
  have e := evenRotor_k phi
  have hF : lossSpec evenRotor.opts evenRotor.B (evenRotor.r 0) evenRotor.Rhub evenRotor.Rtip phi = 1 := by
    simp [lossSpec, evenRotor, annulusRotor, demoRotor]
  have hp : stationPolar evenRotor (243 / 4) (30 / π) 0 az 0 phi = (1, 0) := by simp [stationPolar, evenRotor, annulusRotor]
  unfold RegularAngle
  rw [hp, hF]
  simp only
  rw [e]
  refine regularK_lossless (lt_of_lt_of_le (by norm_num) (show 0 ≤ _ by positivity))

theorem evenRotor_attached (az : ℝ) : AttachedStation evenRotor (243 / 4) (30 / π) 0 az 0 where
  blades := by simp [evenRotor, annulusRotor, demoRotor]
  hub := by simp [evenRotor, annulusRotor]
  inner := by simp [evenRotor, annulusRotor]; norm_num
  outer := by simp [evenRotor, annulusRotor]; norm_num
  chord := by simp [evenRotor, annulusRotor, pi_pos]
  front := by rw [evenRotor_wind]; norm_num
  sense := by rw [evenRotor_wind]; norm_num
  flow := attachedFlow_of_constant_drag (by simp [evenRotor, annulusRotor, demoRotor]) (by simp [evenRotor, annulusRotor])
    (by simp [evenRotor, annulusRotor]; norm_num) (by simp [evenRotor, annulusRotor]; norm_num)
    (fun _ _ _ => le_of_eq (by simp [stationPolar, evenRotor, annulusRotor]))
    fun _ => ⟨0, le_rfl, fun _ _ _ => by simp [stationPolar, evenRotor, annulusRotor]⟩

theorem evenRotor_root (az : ℝ) : stationResidual evenRotor (243 / 4) (30 / π) 0 az 0 (π / 4) = 0 := by
  have hpi := pi_pos
  rw [stationResidual_polar rfl rfl, evenRotor_wind]
  have hp : stationPolar evenRotor (243 / 4) (30 / π) 0 az 0 (π / 4) = (1, 0) := by simp [stationPolar, evenRotor, annulusRotor]
  rw [hp]
  obtain ⟨-, -, h⟩ := indOut_eq (evenRotor.r 0) (evenRotor.chord 0) evenRotor.Rhub evenRotor.Rtip (π / 4) 1 0 evenRotor.B (243 / 4) 60 evenRotor.opts
  simp only
  rw [h, evenRotor_k]
  have hk : √2 / 40 * (cos (π / 4) / (4 * sin (π / 4) ^ 2)) = 1 / 80 := by
    rw [sin_pi_div_four, cos_pi_div_four]
    have : √2 ^ 2 = 2 := Real.sq_sqrt (by norm_num)
    field_simp
    nlinarith
  rw [hk]
  simp only [bemResidual, if_pos (show 0 < π / 4 by linarith)]
  rw [div_eq_mul_one_div (sin (π / 4)), inv_axial_momentum (by linarith) (by norm_num) (by norm_num), sin_pi_div_four, cos_pi_div_four]
  have hw : evenRotor.opts.wakeRot = false := rfl
  rw [if_neg (by simp [hw])]
  ring

/-- Every exact root finder reports 45° for the inner station, and one of them does so. -/
example (bq : RootFinder ℝ) (hbq : ExactRoots bq) (R' : Rotor ℝ) (L : LoadsOut ℝ)
    (h : distributedAeroLoads bq evenRotor (243 / 4) (30 / π) 0 0 = (R', .ok L)) (s : Station ℝ) (hs : L.stations[0]? = some s)
    (hw : s.warned = false) : s.phi = π / 4 := by
  have hpi := pi_pos
  have hO : (30 / π : ℝ) ≠ 0 := by positivity
  have hm : π / 4 ∈ Set.Ioo 0 (π / 2) := ⟨by linarith, by linarith⟩
  obtain ⟨k1, k2, k3⟩ := attached_station (R := evenRotor) rfl rfl (evenRotor_attached 0) hm (evenRotor_root 0)
    (by simp [stationPolar, evenRotor, annulusRotor]) (evenRotor_regular 0 hm.1 hm.2.le)
  have hb := k3 (by linarith [pi_gt_three]) (evenRotor_regular 0 (by norm_num) (by linarith [pi_gt_three]))
    (evenRotor_regular 0 (by linarith) le_rfl)
  obtain ⟨L1, e1, -, e2⟩ := distributedAeroLoads_finds (exactAt (π / 4)) (exactAt_onlyValueError _) evenRotor (243 / 4) (30 / π) 0 0
    (by simp [evenRotor, annulusRotor, demoRotor]) rfl (by simp)
  have hc : distributedAeroLoads (exactAt (π / 4)) evenRotor (243 / 4) (30 / π) 0 0
      = ((distributedAeroLoads (exactAt (π / 4)) evenRotor (243 / 4) (30 / π) 0 0).1, .ok L1) := Prod.ext rfl e1
  obtain ⟨s1, g1, -⟩ := e2 0 (by simp [evenRotor, annulusRotor])
  obtain ⟨d, g2, -⟩ := solveStation_real (loads_station hc g1).2
  have hf : stationErrf evenRotor (deg2rad 0) (rotorWind evenRotor (243 / 4) (30 / π) (deg2rad 0)) 0
      = stationResidual evenRotor (243 / 4) (30 / π) 0 0 0 := rfl
  unfold stationPhi at g2
  rw [if_neg (by simp), if_neg (by simp [evenRotor, annulusRotor, demoRotor]), hf,
    exactAt_solve (evenRotor_root 0) (by rw [hb]; exact ⟨by linarith [pi_gt_three], by linarith⟩)] at g2
  simp only [Except.ok.injEq, Prod.mk.injEq] at g2
  obtain ⟨z, l, u⟩ := exact_interval hbq h hO hs hw
  rw [hb] at l u
  simp only at l u
  rw [g2.1, ← attached_unique _ _ (exactAt_exact (π / 4)) hbq rfl rfl hO (evenRotor_attached 0) _ _ _ _ hc h s1 s g1 hs g2.2.symm hw
    (by rw [← g2.1]; exact hm) (by simp [stationPolar, evenRotor, annulusRotor]) (by rw [← g2.1]; exact evenRotor_regular 0 hm.1 hm.2.le)
    (evenRotor_regular 0 (by linarith) u)]

/-- The hypotheses of `attached_sole` are met: the stations of the design of C111. -/
example (i : ℕ) (hi : i < 3) :
    SoleSolution (fun s p => (((fullCurve s).cond 0 0).sec dictRotor.n i p).residual dictRotor (dictRotor.af i)) 1 (π / 4) := by
  have hok := fullCurve_ok one_pos hi
  have hs := fullCurve_sole 0 0 i hi
  have hpi := pi_gt_three
  have hw : rotorWind (((fullCurve 1).cond 0 0).rotor dictRotor) ((fullCurve 1).cond 0 0).Uinf ((fullCurve 1).cond 0 0).Omega
      (((fullCurve 1).cond 0 0).azimuth * (π / 180)) i = ((8 * 1 : ℝ), (1 * (6 + i / 2) : ℝ)) := by
    have h := congrFun (Design.wind_eq (R := dictRotor) (D := (fullCurve 1).cond 0 0)) i
    rw [real_deg2rad] at h
    exact h.trans (fullCurve_wind 1 0 0 i hi)
  have h0 : (0 : ℝ) ≤ i := Nat.cast_nonneg i
  have h7 := fullCurve_radius hi
  have hp : ∀ p, stationPolar (((fullCurve 1).cond 0 0).rotor dictRotor) ((fullCurve 1).cond 0 0).Uinf ((fullCurve 1).cond 0 0).Omega
      ((fullCurve 1).cond 0 0).pitch ((fullCurve 1).cond 0 0).azimuth i p = (1, 0) := by
    intro p
    simp [stationPolar, Design.rotor, dictRotor, reAirfoil]
  have hB : 0 < (((fullCurve 1).cond 0 0).rotor dictRotor).B := by simp [Design.rotor, dictRotor, reRotor, demoRotor]
  have hh : 0 < (((fullCurve 1).cond 0 0).rotor dictRotor).Rhub := by simp [Design.rotor, RotorDesign.cond, fullCurve]
  have hin : (((fullCurve 1).cond 0 0).rotor dictRotor).Rhub < (((fullCurve 1).cond 0 0).rotor dictRotor).r i := by
    simp only [Design.rotor, RotorDesign.cond, fullCurve]
    linarith
  have hout : (((fullCurve 1).cond 0 0).rotor dictRotor).r i < (((fullCurve 1).cond 0 0).rotor dictRotor).Rtip := by
    simp only [Design.rotor, RotorDesign.cond, fullCurve]
    linarith
  refine attached_sole (R := dictRotor) (i := i) rfl rfl (fun s => (fullCurve s).cond 0 0) 1 ?_ ⟨by linarith, by linarith⟩ ?_ ?_ ?_ hs.joint hs.near
  · refine ⟨hB, hh, hin, hout, hok.chord, ?_, ?_, attachedFlow_of_constant_drag hB hh hin hout ?_ ?_⟩
    · rw [hw]; norm_num
    · rw [hw]; simp only; linarith
    · intro p q _ _ _
      rw [hp, hp]
    · exact fun _ => ⟨0, le_rfl, fun p _ _ => by rw [hp]⟩
  · obtain ⟨p, e1, e2, e3⟩ := (hs.solvePhi someRoot_finds).self_of_nhds
    have := hs.unique p e3 e2
    rw [this] at e2
    exact e2
  · rw [hp]; norm_num
  · intro p hpm
    have hk := fullK_nonneg hok hpm
    unfold RegularAngle
    rw [hp]
    have hF : lossSpec (((fullCurve 1).cond 0 0).rotor dictRotor).opts (((fullCurve 1).cond 0 0).rotor dictRotor).B
        ((((fullCurve 1).cond 0 0).rotor dictRotor).r i) (((fullCurve 1).cond 0 0).rotor dictRotor).Rhub
        (((fullCurve 1).cond 0 0).rotor dictRotor).Rtip p = 1 := by
      simp [lossSpec, Design.rotor, dictRotor, reRotor, demoRotor]
    rw [hF]
    refine regularK_lossless (lt_of_lt_of_le (show (-1 : ℝ) < 0 by norm_num) ?_)
    refine hk.trans_eq ?_
    unfold fullK
    exact (hok.kSpec p).symm

end Verif
