import Verif.Model.BemDv
import Verif.Lemmas.Induction
import Mathlib.Analysis.SpecialFunctions.Sqrt
import Mathlib.Analysis.SpecialFunctions.Trigonometric.Deriv
import Mathlib.Analysis.SpecialFunctions.Trigonometric.InverseDeriv
import Mathlib.Analysis.SpecialFunctions.ExpDeriv
import Mathlib.Analysis.Calculus.Deriv.Inv

/-! # Auxiliary lemmas on the stages of `INDUCTIONFACTORS_DV` -/

namespace Verif

open Filter Topology

/-! ## Values -/

theorem solidityDv_fst (B : ℕ) (c r c' r' : ℝ) : (solidityDv B c r c' r').1 = solidity B c r := by
  simp only [solidityDv, solidity, num_real, div_eq_mul_inv, mul_inv]; ring

theorem normalDv_fst (u : Bool) (a b c d a' b' c' d' : ℝ) :
    (normalDv u a b c d a' b' c' d').1 = normalCoef u a b c d := by
  simp only [normalDv, normalCoef]; cases u <;> rfl

theorem tangDv_fst (u : Bool) (a b c d a' b' c' d' : ℝ) :
    (tangDv u a b c d a' b' c' d').1 = tangCoef u a b c d := by
  simp only [tangDv, tangCoef]; cases u <;> rfl

theorem tipDv_fst (u : Bool) (B : ℕ) (r R s r' R' s' : ℝ) :
    (tipDv u B r R s r' R' s').1 = tipFactor u B r R s := by
  have e : (B : ℝ) * ((R - r) / (2 * r * s)) = B / 2 * (R - r) / (r * s) := by
    simp only [div_eq_mul_inv, mul_inv]; ring
  cases u
  · simp [tipDv, tipFactor]
  · simp only [tipDv, tipFactor, prandtlDv, num_real, if_true]
    push_cast
    rw [e]

theorem hubDv_fst (u : Bool) (B : ℕ) (r R s r' R' s' : ℝ) :
    (hubDv u B r R s r' R' s').1 = hubFactor u B r R s := by
  have e : (B : ℝ) * ((r - R) / (2 * R * s)) = B / 2 * (r - R) / (R * s) := by
    simp only [div_eq_mul_inv, mul_inv]; ring
  cases u
  · simp [hubDv, hubFactor]
  · simp only [hubDv, hubFactor, prandtlDv, num_real, if_true]
    push_cast
    rw [e]

theorem bemKDv_fst (a b c d a' b' c' d' : ℝ) : (bemKDv a b c d a' b' c' d').1 = bemK a b c d := by
  simp only [bemKDv, bemK, num_real, div_eq_mul_inv, mul_inv]; ring

theorem bemKpDv_fst (a b c d e a' b' c' d' e' : ℝ) :
    (bemKpDv a b c d e a' b' c' d' e').1 = bemKp a b c d e := by
  simp only [bemKpDv, bemKp, num_real, div_eq_mul_inv, mul_inv]; ring

theorem abs0_real (g : ℝ) : (if 0 ≤ g then g else -g) = |g| := by
  split_ifs with h
  · exact (abs_of_nonneg h).symm
  · exact (abs_of_neg (not_le.mp h)).symm

theorem axialDv_fst (phi k F k' F' : ℝ) : (axialDv phi k F k' F').1 = axialInduction phi k F := by
  unfold axialDv axialInduction
  simp only [abs0_real, real_nabs]
  split_ifs <;> first
    | rfl
    | (simp only [add_comm]; done)
    | (simp only [num_real, div_div]; done)
    | (simp only [add_comm]; simp only [div_div]; done)

theorem residualDv_fst (phi sphi cphi a k kp Vx Vy s' c' a' k' kp' Vx' Vy' : ℝ) :
    (residualDv phi sphi cphi a k kp Vx Vy s' c' a' k' kp' Vx' Vy').1
      = bemResidual phi sphi cphi a k kp Vx Vy := by
  unfold residualDv bemResidual
  split_ifs
  · simp only; rw [neg_add_eq_sub]; ring
  · simp only; ring

/-! ## Derivatives -/

section
variable {t : ℝ}

theorem solidityDv_deriv (B : ℕ) {c r : ℝ → ℝ} {c' r' : ℝ} (hc : HasDerivAt c c' t) (hr : HasDerivAt r r' t)
    (h0 : r t ≠ 0) : HasDerivAt (fun t => solidity B (c t) (r t)) (solidityDv B (c t) (r t) c' r').2 t := by
  have hpi := Real.pi_ne_zero
  have h := (hc.const_mul ((B : ℝ) / 2 / Real.pi)).div hr h0
  refine (h.congr_deriv ?_).congr_of_eventuallyEq (Eventually.of_forall fun s => ?_)
  · simp only [solidityDv, num_real]; push_cast; field_simp
  · simp only [solidity, num_real]; push_cast; rfl

theorem normalDv_deriv (u : Bool) {a b c d : ℝ → ℝ} {a' b' c' d' : ℝ} (ha : HasDerivAt a a' t)
    (hb : HasDerivAt b b' t) (hc : HasDerivAt c c' t) (hd : HasDerivAt d d' t) :
    HasDerivAt (fun t => normalCoef u (a t) (b t) (c t) (d t))
      (normalDv u (a t) (b t) (c t) (d t) a' b' c' d').2 t := by
  cases u
  · simp only [normalCoef, normalDv, Bool.not_false, if_true]
    exact (ha.mul hd).congr_deriv (by ring)
  · simp only [normalCoef, normalDv, Bool.not_true, Bool.false_eq_true, if_false]
    exact ((ha.mul hd).add (hb.mul hc)).congr_deriv (by ring)

theorem tangDv_deriv (u : Bool) {a b c d : ℝ → ℝ} {a' b' c' d' : ℝ} (ha : HasDerivAt a a' t)
    (hb : HasDerivAt b b' t) (hc : HasDerivAt c c' t) (hd : HasDerivAt d d' t) :
    HasDerivAt (fun t => tangCoef u (a t) (b t) (c t) (d t))
      (tangDv u (a t) (b t) (c t) (d t) a' b' c' d').2 t := by
  cases u
  · simp only [tangCoef, tangDv, Bool.not_false, if_true]
    exact (ha.mul hc).congr_deriv (by ring)
  · simp only [tangCoef, tangDv, Bool.not_true, Bool.false_eq_true, if_false]
    exact ((ha.mul hc).sub (hb.mul hd)).congr_deriv (by ring)

theorem prandtlDv_deriv {f : ℝ → ℝ} {f' : ℝ} (hf : HasDerivAt f f' t) (h0 : 0 < f t) :
    HasDerivAt (fun t => 2 / Real.pi * Real.arccos (Real.exp (-f t))) (prandtlDv (f t) f').2 t := by
  have h1 : Real.exp (-f t) < 1 := by rw [Real.exp_lt_one_iff]; linarith
  have hp := Real.exp_pos (-f t)
  have hn : HasDerivAt (fun t => -f t) (-f') t := hf.neg
  have h := ((Real.hasDerivAt_arccos (x := Real.exp (-f t)) (by linarith) h1.ne).comp t hn.exp).const_mul
    (2 / Real.pi)
  refine h.congr_deriv ?_
  have hc : ¬ (Real.exp (-f t) = 1 ∨ Real.exp (-f t) = -1) := by
    rintro (h | h) <;> linarith
  simp only [prandtlDv, num_real, Bool.or_eq_true, decide_eq_true_eq, hc, if_false]
  push_cast
  simp only [div_eq_mul_inv]
  ring

theorem tipDv_deriv (u : Bool) (B : ℕ) {r R s : ℝ → ℝ} {r' R' s' : ℝ} (hr : HasDerivAt r r' t)
    (hR : HasDerivAt R R' t) (hs : HasDerivAt s s' t)
    (h0 : u = true → r t ≠ 0 ∧ s t ≠ 0 ∧ 0 < (B : ℝ) / 2 * (R t - r t) / (r t * s t)) :
    HasDerivAt (fun t => tipFactor u B (r t) (R t) (s t)) (tipDv u B (r t) (R t) (s t) r' R' s').2 t := by
  cases u
  · simpa [tipFactor, tipDv] using hasDerivAt_const t (1 : ℝ)
  · obtain ⟨h1, h2, h3⟩ := h0 rfl
    have e : ∀ t, (B : ℝ) * ((R t - r t) / (2 * r t * s t)) = B / 2 * (R t - r t) / (r t * s t) := by
      intro t; simp only [div_eq_mul_inv, mul_inv]; ring
    have hf : HasDerivAt (fun t => (B : ℝ) * ((R t - r t) / (2 * r t * s t)))
        ((B : ℝ) * (R' - r' - (R t - r t) / (2 * r t * s t) * (s t * 2 * r' + 2 * r t * s')) / (2 * r t * s t)) t := by
      have h := (((hR.sub hr).div ((hr.const_mul 2).mul hs) (by
        simp only [Pi.mul_apply]; exact mul_ne_zero (mul_ne_zero two_ne_zero h1) h2)).const_mul (B : ℝ))
      refine h.congr_deriv ?_
      simp only [Pi.mul_apply, Pi.sub_apply]
      field_simp
    have h := prandtlDv_deriv hf (by rw [e]; exact h3)
    refine (h.congr_deriv ?_).congr_of_eventuallyEq (Eventually.of_forall fun x => ?_)
    · simp only [tipDv, if_true, num_real]; push_cast; rfl
    · simp only [tipFactor, if_true, num_real]; push_cast; rw [e]

theorem hubDv_deriv (u : Bool) (B : ℕ) {r R s : ℝ → ℝ} {r' R' s' : ℝ} (hr : HasDerivAt r r' t)
    (hR : HasDerivAt R R' t) (hs : HasDerivAt s s' t)
    (h0 : u = true → R t ≠ 0 ∧ s t ≠ 0 ∧ 0 < (B : ℝ) / 2 * (r t - R t) / (R t * s t)) :
    HasDerivAt (fun t => hubFactor u B (r t) (R t) (s t)) (hubDv u B (r t) (R t) (s t) r' R' s').2 t := by
  cases u
  · simpa [hubFactor, hubDv] using hasDerivAt_const t (1 : ℝ)
  · obtain ⟨h1, h2, h3⟩ := h0 rfl
    have e : ∀ t, (B : ℝ) * ((r t - R t) / (2 * R t * s t)) = B / 2 * (r t - R t) / (R t * s t) := by
      intro t; simp only [div_eq_mul_inv, mul_inv]; ring
    have hf : HasDerivAt (fun t => (B : ℝ) * ((r t - R t) / (2 * R t * s t)))
        ((B : ℝ) * (r' - R' - (r t - R t) / (2 * R t * s t) * (s t * 2 * R' + 2 * R t * s')) / (2 * R t * s t)) t := by
      have h := (((hr.sub hR).div ((hR.const_mul 2).mul hs) (by
        simp only [Pi.mul_apply]; exact mul_ne_zero (mul_ne_zero two_ne_zero h1) h2)).const_mul (B : ℝ))
      refine h.congr_deriv ?_
      simp only [Pi.mul_apply, Pi.sub_apply]
      field_simp
    have h := prandtlDv_deriv hf (by rw [e]; exact h3)
    refine (h.congr_deriv ?_).congr_of_eventuallyEq (Eventually.of_forall fun x => ?_)
    · simp only [hubDv, if_true, num_real]; push_cast; rfl
    · simp only [hubFactor, if_true, num_real]; push_cast; rw [e]

theorem bemKDv_deriv {a b c d : ℝ → ℝ} {a' b' c' d' : ℝ} (ha : HasDerivAt a a' t)
    (hb : HasDerivAt b b' t) (hc : HasDerivAt c c' t) (hd : HasDerivAt d d' t) (hc0 : c t ≠ 0) (hd0 : d t ≠ 0) :
    HasDerivAt (fun t => bemK (a t) (b t) (c t) (d t))
      (bemKDv (a t) (b t) (c t) (d t) a' b' c' d').2 t := by
  have h := (ha.mul hb).div ((hc.const_mul 4).mul (hd.mul hd)) (by
    simp only [Pi.mul_apply]; exact mul_ne_zero (mul_ne_zero four_ne_zero hc0) (mul_ne_zero hd0 hd0))
  refine (h.congr_deriv ?_).congr_of_eventuallyEq (Eventually.of_forall fun s => ?_)
  · simp only [bemKDv, num_real, Pi.mul_apply]; push_cast; field_simp; ring
  · simp only [bemK, num_real, Pi.mul_apply, Pi.div_apply]
    push_cast
    simp only [div_eq_mul_inv, mul_inv]; ring

theorem bemKpDv_deriv {a b c d e : ℝ → ℝ} {a' b' c' d' e' : ℝ} (ha : HasDerivAt a a' t)
    (hb : HasDerivAt b b' t) (hc : HasDerivAt c c' t) (hd : HasDerivAt d d' t) (he : HasDerivAt e e' t)
    (hc0 : c t ≠ 0) (hd0 : d t ≠ 0) (he0 : e t ≠ 0) :
    HasDerivAt (fun t => bemKp (a t) (b t) (c t) (d t) (e t))
      (bemKpDv (a t) (b t) (c t) (d t) (e t) a' b' c' d' e').2 t := by
  have h := (ha.mul hb).div ((hc.const_mul 4).mul (hd.mul he)) (by
    simp only [Pi.mul_apply]; exact mul_ne_zero (mul_ne_zero four_ne_zero hc0) (mul_ne_zero hd0 he0))
  refine (h.congr_deriv ?_).congr_of_eventuallyEq (Eventually.of_forall fun s => ?_)
  · simp only [bemKpDv, num_real, Pi.mul_apply]; push_cast; field_simp
  · simp only [bemKp, num_real, Pi.mul_apply, Pi.div_apply]
    push_cast
    simp only [div_eq_mul_inv, mul_inv]; ring

/-- Where the axial induction factor is a differentiable function: away from `phi = 0`, from the poles, and from the
edges of the guard around the singularity of Buhl's formula.  The switch `k = 2/3` is included. -/
def AxialRegular (phi k F : ℝ) : Prop :=
  (0 < phi ∧ k < 2 / 3 ∧ k ≠ -1) ∨
  (0 < phi ∧ k = 2 / 3 ∧ 0 < F ∧ 1 / 1000000 < |2 * F * k - (25 / 9 - 2 * F)|) ∨
  (0 < phi ∧ 2 / 3 < k ∧ 0 < F ∧ |2 * F * k - (25 / 9 - 2 * F)| ≠ 1 / 1000000) ∨
  (phi < 0 ∧ k ≠ 1)

theorem axialDv_snd_momentum {phi k F k' F' : ℝ} (hphi : 0 < phi) (hk : k ≤ 2 / 3) :
    (axialDv phi k F k' F').2 = (1 - k / (k + 1)) * k' / (k + 1) := by
  have h : k ≤ (Num.nat 2 / Num.nat 3 : ℝ) := by simpa [num_real] using hk
  simp only [axialDv, hphi, if_true, h]

theorem momentum_deriv {k : ℝ → ℝ} {k' : ℝ} (hk : HasDerivAt k k' t) (h : k t ≠ -1) :
    HasDerivAt (fun t => k t / (1 + k t)) ((1 - k t / (k t + 1)) * k' / (k t + 1)) t := by
  have h1 : 1 + k t ≠ 0 := fun h' => h (by linarith)
  have h2 : k t + 1 ≠ 0 := fun h' => h (by linarith)
  refine (hk.div (hk.const_add 1) h1).congr_deriv ?_
  have e : k t = (k t + 1) - 1 := by ring
  generalize k t + 1 = D at *
  rw [show 1 + k t = D by rw [e]; ring, e]
  field_simp

theorem sqrtG2_deriv {k F : ℝ → ℝ} {k' F' : ℝ} (hk : HasDerivAt k k' t) (hF : HasDerivAt F F' t)
    (h : 0 < buhlG2 (F t) (k t)) :
    HasDerivAt (fun t => Real.sqrt (buhlG2 (F t) (k t)))
      ((2 * (k t * F' + F t * k') - (4 / 3 - 2 * F t) * F') / (2 * Real.sqrt (buhlG2 (F t) (k t)))) t := by
  have h2 : HasDerivAt (fun t => buhlG2 (F t) (k t)) (2 * (k t * F' + F t * k') - (4 / 3 - 2 * F t) * F') t := by
    simp only [buhlG2_real]
    refine (((hF.const_mul 2).mul hk).sub ((hF.const_sub (4 / 3)).mul hF)).congr_deriv ?_
    ring
  exact h2.sqrt h.ne'

theorem buhl_deriv {k F : ℝ → ℝ} {k' F' : ℝ} (hk : HasDerivAt k k' t) (hF : HasDerivAt F F' t)
    (h : 0 < buhlG2 (F t) (k t)) (h3 : buhlG3 (F t) (k t) ≠ 0) :
    HasDerivAt (fun t => (buhlG1 (F t) (k t) - Real.sqrt (buhlG2 (F t) (k t))) / buhlG3 (F t) (k t))
      ((2 * (k t * F' + F t * k') + F'
        - (2 * (k t * F' + F t * k') - (4 / 3 - 2 * F t) * F') / (2 * Real.sqrt (buhlG2 (F t) (k t)))
        - (buhlG1 (F t) (k t) - Real.sqrt (buhlG2 (F t) (k t))) / buhlG3 (F t) (k t)
          * (2 * (k t * F' + F t * k') + 2 * F')) / buhlG3 (F t) (k t)) t := by
  have hs := sqrtG2_deriv hk hF h
  have h1 : HasDerivAt (fun t => buhlG1 (F t) (k t)) (2 * (k t * F' + F t * k') + F') t := by
    simp only [buhlG1_real]
    exact (((hF.const_mul 2).mul hk).sub (hF.const_sub (10 / 9))).congr_deriv (by ring)
  have hg3 : HasDerivAt (fun t => buhlG3 (F t) (k t)) (2 * (k t * F' + F t * k') + 2 * F') t := by
    simp only [buhlG3_real]
    exact (((hF.const_mul 2).mul hk).sub ((hF.const_mul 2).const_sub (25 / 9))).congr_deriv (by ring)
  refine ((h1.sub hs).div hg3 h3).congr_deriv ?_
  simp only [Pi.sub_apply]
  generalize (2 * (k t * F' + F t * k') - (4 / 3 - 2 * F t) * F') / (2 * Real.sqrt (buhlG2 (F t) (k t))) = q
  field_simp

theorem axialDv_deriv {phi k F : ℝ → ℝ} {k' F' : ℝ} (hp : ContinuousAt phi t) (hk : HasDerivAt k k' t)
    (hF : HasDerivAt F F' t) (h : AxialRegular (phi t) (k t) (F t)) :
    HasDerivAt (fun t => axialInduction (phi t) (k t) (F t)) (axialDv (phi t) (k t) (F t) k' F').2 t := by
  have e23 : (Num.nat 2 / Num.nat 3 : ℝ) = 2 / 3 := by norm_num [num_real]
  have e6 : (Num.nat 1 / Num.nat 1000000 : ℝ) = 1 / 1000000 := by norm_num [num_real]
  have hg3c : ContinuousAt (fun t => |buhlG3 (F t) (k t)|) t := by
    simp only [buhlG3_real]
    have := hF.continuousAt
    have := hk.continuousAt
    fun_prop
  rcases h with ⟨h1, h2, h3⟩ | ⟨h1, h2, h3, h4⟩ | ⟨h1, h2, h3, h4⟩ | ⟨h1, h2⟩
  · rw [axialDv_snd_momentum h1 h2.le]
    refine (momentum_deriv hk h3).congr_of_eventuallyEq ?_
    filter_upwards [hp.eventually (lt_mem_nhds h1), hk.continuousAt.eventually (gt_mem_nhds h2)] with s a b
    exact axial_momentum a b.le
  · -- the switch
    rw [axialDv_snd_momentum h1 h2.le]
    have hg2 : buhlG2 (F t) (k t) = F t ^ 2 := by rw [buhlG2_real, h2]; ring
    have hg2p : 0 < buhlG2 (F t) (k t) := by rw [hg2]; positivity
    have hsq : Real.sqrt (buhlG2 (F t) (k t)) = F t := by rw [hg2, Real.sqrt_sq h3.le]
    have hm := momentum_deriv hk (by rw [h2]; norm_num)
    -- the other branch has the same derivative
    have hb : HasDerivAt (fun t => 1 - 1 / (Real.sqrt (buhlG2 (F t) (k t)) + (5 / 3 - F t)))
        ((1 - k t / (k t + 1)) * k' / (k t + 1)) t := by
      have hw := (sqrtG2_deriv hk hF hg2p).add (hF.const_sub (5 / 3))
      have hw0 : Real.sqrt (buhlG2 (F t) (k t)) + (5 / 3 - F t) ≠ 0 := by rw [hsq]; norm_num
      have := ((hasDerivAt_const t (1 : ℝ)).div hw hw0).const_sub 1
      refine this.congr_deriv ?_
      simp only [Pi.add_apply]
      rw [hsq, h2]
      field_simp
      ring
    have hg : HasDerivAt (fun s => if k s ≤ 2 / 3 then k s / (1 + k s)
        else 1 - 1 / (Real.sqrt (buhlG2 (F s) (k s)) + (5 / 3 - F s))) ((1 - k t / (k t + 1)) * k' / (k t + 1)) t := by
      have hS : HasDerivWithinAt (fun s => if k s ≤ 2 / 3 then k s / (1 + k s)
          else 1 - 1 / (Real.sqrt (buhlG2 (F s) (k s)) + (5 / 3 - F s))) ((1 - k t / (k t + 1)) * k' / (k t + 1))
          {s | k s ≤ 2 / 3} t :=
        hm.hasDerivWithinAt.congr (fun s hs => if_pos hs) (if_pos h2.le)
      have hSc : HasDerivWithinAt (fun s => if k s ≤ 2 / 3 then k s / (1 + k s)
          else 1 - 1 / (Real.sqrt (buhlG2 (F s) (k s)) + (5 / 3 - F s))) ((1 - k t / (k t + 1)) * k' / (k t + 1))
          {s | k s ≤ 2 / 3}ᶜ t := by
        refine hb.hasDerivWithinAt.congr (fun s hs => if_neg hs) ?_
        rw [if_pos h2.le, hsq, h2]
        norm_num
      have := hS.union hSc
      rw [Set.union_compl_self] at this
      exact hasDerivWithinAt_univ.mp this
    refine hg.congr_of_eventuallyEq ?_
    rw [← buhlG3_real] at h4
    filter_upwards [hp.eventually (lt_mem_nhds h1), hF.continuousAt.eventually (lt_mem_nhds h3),
      hg3c.eventually (lt_mem_nhds h4)] with s a b c
    by_cases hle : k s ≤ 2 / 3
    · rw [if_pos hle, axial_momentum a hle]
    · rw [if_neg hle, axial_buhl a b (not_le.mp hle) (le_of_lt c)]
  · -- Buhl
    have hg2p : 0 < buhlG2 (F t) (k t) := lt_of_le_of_lt (sq_nonneg _) (buhlG2_pos h3 h2)
    have hs0 : Real.sqrt (buhlG2 (F t) (k t)) ≠ 0 := (Real.sqrt_pos.mpr hg2p).ne'
    have hk23 : ¬ k t ≤ (Num.nat 2 / Num.nat 3 : ℝ) := by rw [e23]; exact not_le.mpr h2
    rw [← buhlG3_real] at h4
    rcases lt_or_gt_of_ne h4 with h5 | h5
    · have h5' : |buhlG3 (F t) (k t)| < (Num.nat 1 / Num.nat 1000000 : ℝ) := by rw [e6]; exact h5
      have hd := ((hasDerivAt_const t (1 / 2 : ℝ)).div (sqrtG2_deriv hk hF hg2p) hs0).const_sub 1
      have hv : (axialDv (phi t) (k t) (F t) k' F').2
          = 1 / (2 * Real.sqrt (buhlG2 (F t) (k t)))
            * ((2 * (k t * F' + F t * k') - (4 / 3 - 2 * F t) * F') / (2 * Real.sqrt (buhlG2 (F t) (k t))))
              / Real.sqrt (buhlG2 (F t) (k t)) := by
        simp only [axialDv, abs0_real, h1, if_true, hk23, if_false, h5', real_beq, hg2p.ne', decide_false,
          Bool.false_eq_true]
        simp only [num_real]
        push_cast
        rfl
      rw [hv]
      refine (hd.congr_deriv ?_).congr_of_eventuallyEq ?_
      · generalize 2 * (k t * F' + F t * k') - (4 / 3 - 2 * F t) * F' = q
        generalize Real.sqrt (buhlG2 (F t) (k t)) = w at *
        field_simp
        try ring
      · filter_upwards [hp.eventually (lt_mem_nhds h1), hk.continuousAt.eventually (lt_mem_nhds h2),
          hg3c.eventually (gt_mem_nhds h5)] with s a b c
        exact axial_guard a b c
    · have h5' : ¬ |buhlG3 (F t) (k t)| < (Num.nat 1 / Num.nat 1000000 : ℝ) := by rw [e6]; exact not_lt.mpr h5.le
      have h30 : buhlG3 (F t) (k t) ≠ 0 := by
        intro h0
        rw [h0, abs_zero] at h5
        norm_num at h5
      have hd := buhl_deriv hk hF hg2p h30
      refine (hd.congr_deriv ?_).congr_of_eventuallyEq ?_
      · simp only [axialDv, abs0_real, h1, if_true, hk23, if_false, h5', real_beq, hg2p.ne', decide_false,
          Bool.false_eq_true]
        simp only [num_real]
        push_cast
        rfl
      · filter_upwards [hp.eventually (lt_mem_nhds h1), hk.continuousAt.eventually (lt_mem_nhds h2),
          hg3c.eventually (lt_mem_nhds h5)] with s a b c
        have b' : ¬ k s ≤ (Num.nat 2 / Num.nat 3 : ℝ) := by rw [e23]; exact not_le.mpr b
        have c' : ¬ nabs (buhlG3 (F s) (k s)) < (Num.nat 1 / Num.nat 1000000 : ℝ) := by
          rw [real_nabs, e6]; exact not_lt.mpr c.le
        simp only [axialInduction, a, if_true, b', if_false, c', real_sqrt]
  · have hn : ¬ 0 < phi t := not_lt.mpr h1.le
    rcases lt_or_gt_of_ne h2 with h3 | h3
    · have hn3 : ¬ 1 < k t := not_lt.mpr h3.le
      simp only [axialDv, hn, if_false, hn3]
      refine (hasDerivAt_const t (0 : ℝ)).congr_of_eventuallyEq ?_
      filter_upwards [hp.eventually (gt_mem_nhds h1), hk.continuousAt.eventually (gt_mem_nhds h3)] with s a b
      simp only [axialInduction, not_lt.mpr a.le, not_lt.mpr b.le, if_false]
    · simp only [axialDv, hn, if_false, h3, if_true]
      have h0 : k t - 1 ≠ 0 := by linarith
      refine ((hk.div (hk.sub_const 1) h0).congr_deriv ?_).congr_of_eventuallyEq ?_
      · have e : k t = (k t - 1) + 1 := by ring
        generalize k t - 1 = D at *
        rw [e]
        field_simp
      · filter_upwards [hp.eventually (gt_mem_nhds h1), hk.continuousAt.eventually (lt_mem_nhds h3)] with s a b
        simp only [axialInduction, not_lt.mpr a.le, b, if_false, if_true, Pi.div_apply]

theorem residualDv_deriv {phi sphi cphi a k kp Vx Vy : ℝ → ℝ} {s' c' a' k' kp' Vx' Vy' : ℝ}
    (hp : ContinuousAt phi t) (hs : HasDerivAt sphi s' t) (hc : HasDerivAt cphi c' t) (ha : HasDerivAt a a' t)
    (hk : HasDerivAt k k' t) (hkp : HasDerivAt kp kp' t) (hx : HasDerivAt Vx Vx' t) (hy : HasDerivAt Vy Vy' t)
    (hp0 : phi t ≠ 0) (ha0 : 0 < phi t → a t ≠ 1) (hx0 : Vx t ≠ 0) (hy0 : Vy t ≠ 0) :
    HasDerivAt (fun t => bemResidual (phi t) (sphi t) (cphi t) (a t) (k t) (kp t) (Vx t) (Vy t))
      (residualDv (phi t) (sphi t) (cphi t) (a t) (k t) (kp t) (Vx t) (Vy t) s' c' a' k' kp' Vx' Vy').2 t := by
  have hl : HasDerivAt (fun t => Vy t / Vx t) ((Vy' - Vy t * Vx' / Vx t) / Vx t) t :=
    (hy.div hx hx0).congr_deriv (by field_simp)
  have hl0 : Vy t / Vx t ≠ 0 := div_ne_zero hy0 hx0
  have hcl : HasDerivAt (fun t => cphi t / (Vy t / Vx t))
      ((c' - cphi t / (Vy t / Vx t) * ((Vy' - Vy t * Vx' / Vx t) / Vx t)) / (Vy t / Vx t)) t := by
    refine (hc.div hl hl0).congr_deriv ?_
    generalize (Vy' - Vy t * Vx' / Vx t) / Vx t = l' at *
    generalize Vy t / Vx t = l at *
    field_simp
  rcases lt_or_gt_of_ne hp0 with h | h
  · simp only [residualDv, not_lt.mpr h.le, if_false]
    have hd := (hs.mul (hk.const_sub 1)).sub (hcl.mul (hkp.const_sub 1))
    refine (hd.congr_deriv ?_).congr_of_eventuallyEq ?_
    · ring
    · filter_upwards [hp.eventually (gt_mem_nhds h)] with s b
      simp only [bemResidual, not_lt.mpr b.le, if_false]
      rfl
  · simp only [residualDv, h, if_true]
    have h1 : 1 - a t ≠ 0 := fun h' => ha0 h (by linarith)
    have hd := (hs.div (ha.const_sub 1) h1).sub (hcl.mul (hkp.const_sub 1))
    refine (hd.congr_deriv ?_).congr_of_eventuallyEq ?_
    · rw [neg_add_eq_sub]
      have e : (s' * (1 - a t) - sphi t * -a') / (1 - a t) ^ 2 = (s' + sphi t / (1 - a t) * a') / (1 - a t) := by
        generalize 1 - a t = D at *
        field_simp
        ring
      rw [e]
      ring
    · filter_upwards [hp.eventually (lt_mem_nhds h)] with s b
      simp only [bemResidual, b, if_true]
      rfl

end

end Verif
