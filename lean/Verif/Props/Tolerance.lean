import Verif.Props.Feather

/-!
# The tolerance of the root finder (C115)
-/

namespace Verif

open Real Filter Topology

/-! ## Root finders with a tolerance -/

/-- What a bracketing root finder with absolute tolerance `δ` promises: given end points at which the function does not have the same
sign, it succeeds, and within `δ` of its result there are two points of the interval at which the function does not have the same
sign either. Nothing is asked of the function. -/
def BracketsRoots (δ : ℝ) (bq : RootFinder ℝ) : Prop :=
  ∀ (f : ℝ → ℝ) (a b : ℝ), a ≤ b → f a * f b ≤ 0 →
    ∃ p x y, bq f a b = .ok p ∧ p ∈ Set.Icc a b ∧ x ∈ Set.Icc a b ∧ y ∈ Set.Icc a b ∧ |p - x| ≤ δ ∧ |p - y| ≤ δ ∧ f x * f y ≤ 0

/-- Bisection. -/
theorem halvings (f : ℝ → ℝ) (n : ℕ) : ∀ a b : ℝ, a ≤ b → f a * f b ≤ 0 →
    ∃ x y, x ∈ Set.Icc a b ∧ y ∈ Set.Icc a b ∧ x ≤ y ∧ y - x ≤ (b - a) / 2 ^ n ∧ f x * f y ≤ 0 := by
  induction n with
  | zero => exact fun a b h hs => ⟨a, b, ⟨le_rfl, h⟩, ⟨h, le_rfl⟩, h, by simp, hs⟩
  | succ n ih =>
    intro a b h hs
    by_cases hm : f a * f ((a + b) / 2) ≤ 0
    · obtain ⟨x, y, hx, hy, hxy, hd, hs'⟩ := ih a ((a + b) / 2) (by linarith) hm
      refine ⟨x, y, ⟨hx.1, by linarith [hx.2]⟩, ⟨hy.1, by linarith [hy.2]⟩, hxy, hd.trans_eq ?_, hs'⟩
      rw [pow_succ]
      field_simp
      ring
    · have hm' : f ((a + b) / 2) * f b ≤ 0 := by
        push Not at hm
        by_contra h'
        push Not at h'
        have := mul_pos hm h'
        nlinarith [sq_nonneg (f ((a + b) / 2)), mul_nonneg (sq_nonneg (f ((a + b) / 2))) (neg_nonneg.mpr hs)]
      obtain ⟨x, y, hx, hy, hxy, hd, hs'⟩ := ih ((a + b) / 2) b (by linarith) hm'
      refine ⟨x, y, ⟨by linarith [hx.1], hx.2⟩, ⟨by linarith [hy.1], hy.2⟩, hxy, hd.trans_eq ?_, hs'⟩
      rw [pow_succ]
      field_simp
      ring

/-- A root finder with tolerance `δ`. -/
noncomputable def someBracket (δ : ℝ) : RootFinder ℝ := by
  classical
  exact fun f a b =>
    if h : ∃ p, p ∈ Set.Icc a b ∧ ∃ x y, x ∈ Set.Icc a b ∧ y ∈ Set.Icc a b ∧ |p - x| ≤ δ ∧ |p - y| ≤ δ ∧ f x * f y ≤ 0 then .ok h.choose
    else .error .valueError

theorem someBracket_brackets {δ : ℝ} (hδ : 0 < δ) : BracketsRoots δ (someBracket δ) := by
  intro f a b hab hs
  have h : ∃ p, p ∈ Set.Icc a b ∧ ∃ x y, x ∈ Set.Icc a b ∧ y ∈ Set.Icc a b ∧ |p - x| ≤ δ ∧ |p - y| ≤ δ ∧ f x * f y ≤ 0 := by
    obtain ⟨n, hn⟩ := pow_unbounded_of_one_lt ((b - a) / δ) (one_lt_two (α := ℝ))
    obtain ⟨x, y, hx, hy, hxy, hd, hs'⟩ := halvings f n a b hab hs
    refine ⟨x, hx, x, y, hx, hy, by simpa using hδ.le, ?_, hs'⟩
    rw [abs_sub_comm, abs_of_nonneg (by linarith)]
    refine hd.trans ?_
    rw [div_le_iff₀ (by positivity)]
    rw [div_lt_iff₀ hδ] at hn
    linarith
  obtain ⟨hp, x, y, hx⟩ := h.choose_spec
  refine ⟨h.choose, x, y, ?_, hp, hx⟩
  unfold someBracket
  rw [dif_pos h]

theorem someBracket_onlyValueError (δ : ℝ) : OnlyValueError (someBracket δ) := by
  intro f a b e h
  unfold someBracket at h
  split_ifs at h
  simpa using h.symm

/-! ## Limits at a section -/

section
variable {ι : Type*} {l : Filter ι}

theorem wakeOf_tendsto {F k : ι → ℝ} {F0 k0 : ℝ} (hF0 : 0 < F0) (hF : Tendsto F l (𝓝 F0)) (hk : Tendsto k l (𝓝 k0)) :
    Tendsto (fun n => wakeOf (F n) (k n)) l (𝓝 (wakeOf F0 k0)) := by
  have t1 : Tendsto (fun n => 1 + k n) l (𝓝 (1 + k0)) := hk.const_add 1
  have t2 : Tendsto (fun n => buhlWake (F n) (k n)) l (𝓝 (buhlWake F0 k0)) := by
    unfold buhlWake
    exact (((((hF.const_mul 2).mul hk).sub ((hF.const_sub _).mul hF)).sqrt).add_const _).sub hF
  unfold wakeOf
  rcases lt_trichotomy k0 (2 / 3) with h | h | h
  · rw [if_pos h.le]
    refine t1.congr' ?_
    filter_upwards [hk.eventually (gt_mem_nhds h)] with n hn
    rw [if_pos (le_of_lt hn)]
  · rw [if_pos h.le]
    refine Tendsto.if' t1 ?_
    convert t2 using 2
    rw [h, buhlWake_switch hF0]
    norm_num
  · rw [if_neg (not_le.mpr h)]
    refine t2.congr' ?_
    filter_upwards [hk.eventually (lt_mem_nhds h)] with n hn
    rw [if_neg (not_le.mpr hn)]

theorem prandtl_tendsto {B : ℕ} {d R p0 : ℝ} {u : ι → ℝ} (hR : R ≠ 0) (hs : sin p0 ≠ 0) (hu : Tendsto u l (𝓝 p0)) :
    Tendsto (fun n => prandtl B d R (u n)) l (𝓝 (prandtl B d R p0)) := by
  unfold prandtl
  refine Tendsto.const_mul _ ((continuous_arccos.tendsto _).comp ((continuous_exp.tendsto _).comp (Tendsto.neg ?_)))
  exact tendsto_const_nhds.div (Tendsto.const_mul _ ((continuous_sin.tendsto _).comp hu)) (mul_ne_zero hR hs)

theorem lossSpec_tendsto {o : BemOpts} {B : ℕ} {r Rhub Rtip p0 : ℝ} {u : ι → ℝ} (hr : r ≠ 0) (hh : Rhub ≠ 0) (hs : sin p0 ≠ 0)
    (hu : Tendsto u l (𝓝 p0)) : Tendsto (fun n => lossSpec o B r Rhub Rtip (u n)) l (𝓝 (lossSpec o B r Rhub Rtip p0)) := by
  unfold lossSpec
  refine Tendsto.mul ?_ ?_
  · split_ifs
    · exact prandtl_tendsto hr hs hu
    · exact tendsto_const_nhds
  · split_ifs
    · exact prandtl_tendsto hh hs hu
    · exact tendsto_const_nhds

/-- The routine's three formulas for the speed agree where the velocity triangle closes, so the speed is continuous there. -/
theorem relSpeed_tendsto {u a ap : ι → ℝ} {p0 a0 ap0 Vx Vy : ℝ} (hu : Tendsto u l (𝓝 p0)) (ha : Tendsto a l (𝓝 a0))
    (hap : Tendsto ap l (𝓝 ap0)) (hs : 0 < sin p0) (hc : 0 < cos p0) (hV : 0 ≤ Vy * (1 + ap0))
    (htri : Vx * (1 - a0) * cos p0 = Vy * (1 + ap0) * sin p0) :
    Tendsto (fun n => relSpeed (u n) (a n) (ap n) Vx Vy) l (𝓝 (relSpeed p0 a0 ap0 Vx Vy)) := by
  have t1 : Tendsto (fun n => Vy * (1 + ap n) / cos (u n)) l (𝓝 (Vy * (1 + ap0) / cos p0)) :=
    ((hap.const_add 1).const_mul Vy).div ((continuous_cos.tendsto _).comp hu) hc.ne'
  have t2 : Tendsto (fun n => Vx * (1 - a n) / sin (u n)) l (𝓝 (Vx * (1 - a0) / sin p0)) :=
    ((ha.const_sub 1).const_mul Vx).div ((continuous_sin.tendsto _).comp hu) hs.ne'
  have t3 : Tendsto (fun n => √((Vx * (1 - a n)) ^ 2 + (Vy * (1 + ap n)) ^ 2)) l (𝓝 (√((Vx * (1 - a0)) ^ 2 + (Vy * (1 + ap0)) ^ 2))) :=
    ((((ha.const_sub 1).const_mul Vx).pow 2).add (((hap.const_add 1).const_mul Vy).pow 2)).sqrt
  have e2 : Vx * (1 - a0) / sin p0 = Vy * (1 + ap0) / cos p0 := by
    rw [div_eq_div_iff hs.ne' hc.ne']
    exact htri
  have e3 : √((Vx * (1 - a0)) ^ 2 + (Vy * (1 + ap0)) ^ 2) = Vy * (1 + ap0) / cos p0 := by
    have hX : 0 ≤ Vy * (1 + ap0) / cos p0 := div_nonneg hV hc.le
    rw [Real.sqrt_eq_iff_mul_self_eq (by positivity) hX]
    have h1 : Vx * (1 - a0) = Vy * (1 + ap0) / cos p0 * sin p0 := by rw [← e2]; field_simp
    have h2 : Vy * (1 + ap0) = Vy * (1 + ap0) / cos p0 * cos p0 := by field_simp
    generalize Vy * (1 + ap0) / cos p0 = X at *
    rw [h1, h2]
    linear_combination (X ^ 2) * sin_sq_add_cos_sq p0
  rw [e2] at t2
  rw [e3] at t3
  have e0 : relSpeed p0 a0 ap0 Vx Vy = Vy * (1 + ap0) / cos p0 := by
    simp only [relSpeed, num_real, sq]
    split_ifs
    · rfl
    · exact e2
    · simpa only [pow_two] using e3
  rw [e0]
  simp only [relSpeed, num_real, sq]
  exact Tendsto.if' t1 (Tendsto.if' t2 (by simpa only [pow_two] using t3))

/-- Induction factors and speed near a solution in attached flow. -/
theorem section_limit {o : BemOpts} {B : ℕ} {r chord Rhub Rtip Vx Vy p0 : ℝ} {cl cd : ℝ → ℝ} {u : ι → ℝ} (hB : 0 < B) (hRhub : 0 < Rhub)
    (h1 : Rhub < r) (h2 : r < Rtip) (hc : 0 < chord) (hVx : 0 < Vx) (hVy : 0 < Vy) (hatt : AttachedFlow o B r Rhub Rtip cl cd)
    (hp : p0 ∈ Set.Ioo 0 (π / 2)) (hroot : (inductionFactors r chord Rhub Rtip p0 (cl p0) (cd p0) B Vx Vy o).fzero = 0)
    (hreg : RegularK (lossSpec o B r Rhub Rtip p0) (kSpec o B r chord Rhub Rtip p0 (cl p0) (cd p0))) (hcl : 0 ≤ cl p0)
    (hu : Tendsto u l (𝓝 p0)) (hu0 : ∀ n, 0 < u n) (hu1 : ∀ n, u n ≤ π / 2)
    (hregu : ∀ n, RegularK (lossSpec o B r Rhub Rtip (u n)) (kSpec o B r chord Rhub Rtip (u n) (cl (u n)) (cd (u n))))
    (tcl : Tendsto (fun n => cl (u n)) l (𝓝 (cl p0))) (tcd : Tendsto (fun n => cd (u n)) l (𝓝 (cd p0))) :
    let I := fun p => inductionFactors r chord Rhub Rtip p (cl p) (cd p) B Vx Vy o
    Tendsto (fun n => (I (u n)).a) l (𝓝 (I p0).a) ∧ Tendsto (fun n => (I (u n)).ap) l (𝓝 (I p0).ap) ∧
      Tendsto (fun n => relSpeed (u n) (I (u n)).a (I (u n)).ap Vx Vy) l (𝓝 (relSpeed p0 (I p0).a (I p0).ap Vx Vy)) := by
  intro I
  have hpi := pi_pos
  have hr : 0 < r := hRhub.trans h1
  have hs : 0 < sin p0 := sin_pos_of_pos_of_lt_pi hp.1 (by linarith [hp.2])
  have hcp : 0 < cos p0 := cos_pos_of_mem_Ioo ⟨by linarith [hp.1], hp.2⟩
  have hF0 := (lossSpec_range o B hB r Rhub Rtip p0 hRhub h1 h2 hp.1 (by linarith [hp.2])).1
  have tF := lossSpec_tendsto (o := o) (B := B) (Rtip := Rtip) hr.ne' hRhub.ne' hs.ne' hu
  have ts : Tendsto (fun n => sin (u n)) l (𝓝 (sin p0)) := (continuous_sin.tendsto _).comp hu
  have tc : Tendsto (fun n => cos (u n)) l (𝓝 (cos p0)) := (continuous_cos.tendsto _).comp hu
  have td : Tendsto (fun n => if o.useCd = true then cd (u n) else 0) l (𝓝 (if o.useCd = true then cd p0 else 0)) := by
    split_ifs
    · exact tcd
    · exact tendsto_const_nhds
  have tk : Tendsto (fun n => kSpec o B r chord Rhub Rtip (u n) (cl (u n)) (cd (u n))) l (𝓝 (kSpec o B r chord Rhub Rtip p0 (cl p0) (cd p0))) := by
    unfold kSpec cnSpec
    exact (((tcl.mul tc).add (td.mul ts)).const_mul _).div ((tF.const_mul 4).mul (ts.pow 2)) (by positivity)
  have tkp : Tendsto (fun n => kpSpec o B r chord Rhub Rtip (u n) (cl (u n)) (cd (u n))) l (𝓝 (kpSpec o B r chord Rhub Rtip p0 (cl p0) (cd p0))) := by
    unfold kpSpec ctSpec
    exact (((tcl.mul ts).sub (td.mul tc)).const_mul _).div (((tF.const_mul 4).mul ts).mul tc) (by positivity)
  have hw0 : 0 < wakeOf (lossSpec o B r Rhub Rtip p0) (kSpec o B r chord Rhub Rtip p0 (cl p0) (cd p0)) := by
    have h := sectionWake_pos (cl := cl) (cd := cd) hB hRhub h1 h2 hc hatt hp.1 hp.2 hcl
    unfold sectionWake at h
    dsimp only at h
    rw [← kSpec_forceK (cl := cl) (cd := cd) hB hRhub h1 h2 hp.1 hp.2] at h
    exact pos_of_mul_pos_right h (tan_pos_of_pos_of_lt_pi_div_two hp.1 hp.2).le
  have ea : ∀ p, 0 < p → p ≤ π / 2 → RegularK (lossSpec o B r Rhub Rtip p) (kSpec o B r chord Rhub Rtip p (cl p) (cd p)) →
      (I p).a = 1 - (wakeOf (lossSpec o B r Rhub Rtip p) (kSpec o B r chord Rhub Rtip p (cl p) (cd p)))⁻¹ := by
    intro p h0 h1' hg
    have hF := (lossSpec_range o B hB r Rhub Rtip p hRhub h1 h2 h0 (by linarith)).1
    rw [← inv_axial_wake h0 hF hg.1 hg.2, ← (indOut_eq r chord Rhub Rtip p (cl p) (cd p) B Vx Vy o).1, one_div, inv_inv]
    ring
  have ta : Tendsto (fun n => (I (u n)).a) l (𝓝 (I p0).a) := by
    simp only [fun n => ea (u n) (hu0 n) (hu1 n) (hregu n), ea p0 hp.1 hp.2.le hreg]
    exact ((wakeOf_tendsto hF0 tF tk).inv₀ hw0.ne').const_sub 1
  obtain ⟨hS, -⟩ := section_speed hB hRhub h1 h2 hc hVx hVy hatt hp hroot hreg hcl
  rw [sectionSwirl_eq hB hRhub h1 h2 hp.1 hp.2] at hS
  have tap : Tendsto (fun n => (I (u n)).ap) l (𝓝 (I p0).ap) := by
    have e : ∀ p, (I p).ap = if o.wakeRot then kpSpec o B r chord Rhub Rtip p (cl p) (cd p) / (1 - kpSpec o B r chord Rhub Rtip p (cl p) (cd p)) else 0 :=
      fun p => (indOut_eq r chord Rhub Rtip p (cl p) (cd p) B Vx Vy o).2.1
    simp only [e]
    split_ifs at hS ⊢
    · exact tkp.div (tkp.const_sub 1) hS.ne'
    · exact tendsto_const_nhds
  have ha1 : (I p0).a ≠ 1 := by
    rw [ea p0 hp.1 hp.2.le hreg]
    have := inv_pos.mpr hw0
    linarith
  obtain ⟨-, q1, q2, -⟩ := root_triangle r chord Rhub Rtip p0 (cl p0) (cd p0) B Vx Vy o hVx.ne' hVy.ne' hp.1 (by linarith [hp.2]) ha1 hroot
  refine ⟨ta, tap, relSpeed_tendsto hu ta tap hs hcp ?_ q2⟩
  have : 0 < 1 + (I p0).ap := by
    by_contra h
    push Not at h
    have := mul_nonpos_of_nonpos_of_nonneg h hS.le
    simp only [I] at this
    linarith
  positivity

end

/-! ## C115 -/

section
variable {R : Rotor ℝ} {Uinf Omega pitch az : ℝ} {i : ℕ}

/-- **C115** A station in attached flow, one pass over the Reynolds number or an airfoil that ignores it, solved exactly and solved with a
root finder of tolerance `δ`: the second solution succeeds without a warning, its inflow angle lies within `δ` of the exact one, its angle of attack
within `180 δ/π` degrees. -/
theorem tolerance_angle (bq0 : RootFinder ℝ) (hbq0 : ExactRoots bq0) (δ : ℝ) (bq : RootFinder ℝ) (hbq : BracketsRoots δ bq) (hinv : R.inv = none)
    (hre : FixedRe R i) (hO : Omega ≠ 0) (hatt : AttachedStation R Uinf Omega pitch az i) (R0 R1 : Rotor ℝ) (L0 L : LoadsOut ℝ)
    (h0 : distributedAeroLoads bq0 R Uinf Omega pitch az = (R0, .ok L0)) (h : distributedAeroLoads bq R Uinf Omega pitch az = (R1, .ok L))
    (s0 s : Station ℝ) (hs0 : L0.stations[i]? = some s0) (hs : L.stations[i]? = some s) (hw0 : s0.warned = false)
    (hphi : s0.phi ∈ Set.Ioo 0 (π / 2)) (hcl : 0 ≤ s0.loads.cl)
    (hreg : ∀ p ∈ Set.Icc (1 / 1000000) (π / 2), RegularAngle R Uinf Omega pitch az i p) :
    s.warned = false ∧ s.phi ∈ Set.Icc (1 / 1000000) (π / 2) ∧ |s.phi - s0.phi| ≤ δ ∧ |s.loads.alpha - s0.loads.alpha| ≤ δ * (180 / π) := by
  have hpi := pi_gt_three
  obtain ⟨Vx, Vy, hV⟩ : ∃ Vx Vy, rotorWind R Uinf Omega (az * (π / 180)) i = (Vx, Vy) := ⟨_, _, rfl⟩
  obtain ⟨hB, hRhub, h1, h2, hc, hVx, hVy, hflow⟩ := hatt
  rw [hV] at hVx hVy
  simp only at hVx hVy
  obtain ⟨f1, f2, f3, f4⟩ := station_facts hinv hre h0 hO hs0 hV hVx.ne' hVy.ne'
  obtain ⟨g1, g2, g3, g4⟩ := station_facts hinv hre h hO hs hV hVx.ne' hVy.ne'
  have e := stationResidual_const (Uinf := Uinf) (Omega := Omega) (pitch := pitch) (az := az) hinv hre
  rw [hV] at e
  obtain ⟨z, l, u⟩ := exact_interval hbq0 h0 hO hs0 hw0
  rw [e] at z
  rw [f1] at hcl
  have hlo : 1 / 1000000 ≤ s0.phi := by
    have hb := bracket_searchInterval (stationResidual R Uinf Omega pitch az i)
    simp only [SearchInterval, num_real] at hb
    push_cast at hb
    obtain ⟨p0, p1⟩ := hphi
    rcases hb with hb | hb | hb <;> rw [hb] at l u <;> simp only at l u
    · exact l
    · linarith
    · linarith
  obtain ⟨below, above⟩ := attached_sign hB hRhub h1 h2 hc hVx hVy hflow hphi z (hreg _ ⟨hlo, hphi.2.le⟩) hcl
  have hneg : ∀ p, 1 / 1000000 ≤ p → p < s0.phi → stationResidual R Uinf Omega pitch az i p < 0 := fun p a b => by
    rw [e]
    exact below p (lt_of_lt_of_le (by norm_num) a) b (hreg p ⟨a, b.le.trans hphi.2.le⟩)
  have hpos : ∀ p, s0.phi < p → p ≤ π / 2 → 0 < stationResidual R Uinf Omega pitch az i p := fun p a b => by
    rw [e]
    exact above p a b (hreg p ⟨hlo.trans a.le, b⟩)
  have hzero : stationResidual R Uinf Omega pitch az i s0.phi = 0 := by rw [e]; exact z
  have hsign : stationResidual R Uinf Omega pitch az i (1 / 1000000) * stationResidual R Uinf Omega pitch az i (π / 2) ≤ 0 := by
    refine mul_nonpos_of_nonpos_of_nonneg ?_ (hpos _ hphi.2 le_rfl).le
    rcases lt_or_eq_of_le hlo with hh | hh
    · exact (hneg _ le_rfl hh).le
    · rw [hh]
      exact hzero.le
  obtain ⟨p, x, y, hp, hpi1, hx, hy, hpx, hpy, hxy⟩ := hbq _ (1 / 1000000) (π / 2) (by linarith) hsign
  -- the exact solution lies between `x` and `y`
  have hdist : |p - s0.phi| ≤ δ := by
    rw [abs_le] at hpx hpy ⊢
    rcases lt_trichotomy x s0.phi with a | a | a <;> rcases lt_trichotomy y s0.phi with b | b | b
    · exact absurd (mul_pos_of_neg_of_neg (hneg x hx.1 a) (hneg y hy.1 b)) (not_lt.mpr hxy)
    · exact b ▸ hpy
    · constructor <;> linarith
    · exact a ▸ hpx
    · exact a ▸ hpx
    · exact a ▸ hpx
    · constructor <;> linarith
    · exact b ▸ hpy
    · exact absurd (mul_pos (hpos x a hx.2) (hpos y b hy.2)) (not_lt.mpr hxy)
  -- what the station computes
  obtain ⟨d, hsol, -⟩ := solveStation_real (loads_station h hs).2
  have hf : stationErrf R (deg2rad pitch) (rotorWind R Uinf Omega (deg2rad az)) i = stationResidual R Uinf Omega pitch az i := rfl
  unfold stationPhi at hsol
  rw [if_neg (by simpa using hO), hf] at hsol
  split_ifs at hsol
  unfold solvePhi at hsol
  rw [(bracket_choice _).1 hsign] at hsol
  simp only [hp, Except.ok.injEq, Prod.mk.injEq] at hsol
  rw [← hsol.1]
  refine ⟨hsol.2.symm, hpi1, hdist, ?_⟩
  have ealpha : s.loads.alpha - s0.loads.alpha = (p - s0.phi) * (180 / π) := by
    have : (s.loads.alpha - s0.loads.alpha) * (π / 180) = p - s0.phi := by rw [sub_mul, f4, g4, ← hsol.1]; ring
    rw [← this]
    field_simp
  rw [ealpha, abs_mul, abs_of_pos (show 0 < 180 / π by positivity)]
  exact mul_le_mul_of_nonneg_right hdist (by positivity)

/-- **C115** As the tolerance tends to zero, so do the errors of the loads of such a station, if its airfoil is continuous at the exact
angle of attack. -/
theorem tolerance_loads {ι : Type*} {l : Filter ι} (bq0 : RootFinder ℝ) (hbq0 : ExactRoots bq0) (δ : ι → ℝ) (hδ : Tendsto δ l (𝓝 0))
    (bq : ι → RootFinder ℝ) (hbq : ∀ n, BracketsRoots (δ n) (bq n)) (hinv : R.inv = none)
    (hre : FixedRe R i) (hO : Omega ≠ 0) (hatt : AttachedStation R Uinf Omega pitch az i) (R0 : Rotor ℝ) (R1 : ι → Rotor ℝ)
    (L0 : LoadsOut ℝ) (L : ι → LoadsOut ℝ) (h0 : distributedAeroLoads bq0 R Uinf Omega pitch az = (R0, .ok L0))
    (h : ∀ n, distributedAeroLoads (bq n) R Uinf Omega pitch az = (R1 n, .ok (L n))) (s0 : Station ℝ) (s : ι → Station ℝ)
    (hs0 : L0.stations[i]? = some s0) (hs : ∀ n, (L n).stations[i]? = some (s n)) (hw0 : s0.warned = false)
    (hphi : s0.phi ∈ Set.Ioo 0 (π / 2)) (hcl : 0 ≤ s0.loads.cl)
    (hreg : ∀ p ∈ Set.Icc (1 / 1000000) (π / 2), RegularAngle R Uinf Omega pitch az i p)
    (hcont : ContinuousAt (fun a => (R.af i).evaluate a (stationRe R Uinf Omega az i)) (s0.phi - (R.theta i + pitch * (π / 180)))) :
    Tendsto (fun n => (s n).phi) l (𝓝 s0.phi) ∧ Tendsto (fun n => (s n).loads.alpha) l (𝓝 s0.loads.alpha) ∧
      Tendsto (fun n => (s n).loads.cl) l (𝓝 s0.loads.cl) ∧ Tendsto (fun n => (s n).loads.cd) l (𝓝 s0.loads.cd) ∧
      Tendsto (fun n => (s n).loads.a) l (𝓝 s0.loads.a) ∧ Tendsto (fun n => (s n).loads.ap) l (𝓝 s0.loads.ap) ∧
      Tendsto (fun n => (s n).loads.W) l (𝓝 s0.loads.W) ∧ Tendsto (fun n => (s n).loads.Np) l (𝓝 s0.loads.Np) ∧
      Tendsto (fun n => (s n).loads.Tp) l (𝓝 s0.loads.Tp) := by
  have hpi := pi_gt_three
  have key := fun n => tolerance_angle bq0 hbq0 (δ n) (bq n) (hbq n) hinv hre hO hatt R0 (R1 n) L0 (L n) h0 (h n) s0 (s n) hs0 (hs n) hw0 hphi hcl hreg
  have tphi : Tendsto (fun n => (s n).phi) l (𝓝 s0.phi) := by
    rw [tendsto_iff_dist_tendsto_zero]
    exact squeeze_zero (fun _ => dist_nonneg) (fun n => by rw [Real.dist_eq]; exact (key n).2.2.1) hδ
  have talpha : Tendsto (fun n => (s n).loads.alpha) l (𝓝 s0.loads.alpha) := by
    rw [tendsto_iff_dist_tendsto_zero]
    refine squeeze_zero (fun _ => dist_nonneg) (g := fun n => δ n * (180 / π)) (fun n => by rw [Real.dist_eq]; exact (key n).2.2.2) ?_
    simpa using hδ.mul_const (180 / π)
  obtain ⟨Vx, Vy, hV⟩ : ∃ Vx Vy, rotorWind R Uinf Omega (az * (π / 180)) i = (Vx, Vy) := ⟨_, _, rfl⟩
  obtain ⟨hB, hRhub, h1, h2, hc, hVx, hVy, hflow⟩ := hatt
  rw [hV] at hVx hVy
  simp only at hVx hVy
  obtain ⟨f1, f2, f3, f4⟩ := station_facts hinv hre h0 hO hs0 hV hVx.ne' hVy.ne'
  have g := fun n => station_facts hinv hre (h n) hO (hs n) hV hVx.ne' hVy.ne'
  have ei := fun n => loads_induction (h n) (hs n) hO hV hVx.ne' hVy.ne'
  have ei0 := loads_induction h0 hs0 hO hV hVx.ne' hVy.ne'
  have e := stationResidual_const (Uinf := Uinf) (Omega := Omega) (pitch := pitch) (az := az) hinv hre
  rw [hV] at e
  obtain ⟨z, lo, up⟩ := exact_interval hbq0 h0 hO hs0 hw0
  rw [e] at z
  have tpol : Tendsto (fun n => stationPolar R Uinf Omega pitch az i (s n).phi) l (𝓝 (stationPolar R Uinf Omega pitch az i s0.phi)) :=
    Tendsto.comp (f := fun n => (s n).phi - (R.theta i + pitch * (π / 180))) hcont (tphi.sub_const _)
  have tcl : Tendsto (fun n => (stationPolar R Uinf Omega pitch az i (s n).phi).1) l (𝓝 (stationPolar R Uinf Omega pitch az i s0.phi).1) := (continuous_fst.tendsto _).comp tpol
  have tcd : Tendsto (fun n => (stationPolar R Uinf Omega pitch az i (s n).phi).2) l (𝓝 (stationPolar R Uinf Omega pitch az i s0.phi).2) := (continuous_snd.tendsto _).comp tpol
  have tcl' : Tendsto (fun n => (s n).loads.cl) l (𝓝 s0.loads.cl) := by simp only [f1, fun n => (g n).1]; exact tcl
  have tcd' : Tendsto (fun n => (s n).loads.cd) l (𝓝 s0.loads.cd) := by simp only [f2, fun n => (g n).2.1]; exact tcd
  have hreg0 : RegularAngle R Uinf Omega pitch az i s0.phi := by
    by_cases hlo : 1 / 1000000 ≤ s0.phi
    · exact hreg _ ⟨hlo, hphi.2.le⟩
    · exfalso
      have hb := bracket_searchInterval (stationResidual R Uinf Omega pitch az i)
      simp only [SearchInterval, num_real] at hb
      push_cast at hb
      obtain ⟨p0, p1⟩ := hphi
      rcases hb with hb | hb | hb <;> rw [hb] at lo up <;> simp only at lo up
      · exact hlo lo
      · linarith
      · linarith
  obtain ⟨ta, tap, tW⟩ := section_limit (u := fun n => (s n).phi) hB hRhub h1 h2 hc hVx hVy hflow hphi z hreg0 (f1 ▸ hcl) tphi
    (fun n => lt_of_lt_of_le (by norm_num) (key n).2.1.1) (fun n => (key n).2.1.2) (fun n => hreg _ (key n).2.1) tcl tcd
  have ta' : Tendsto (fun n => (s n).loads.a) l (𝓝 s0.loads.a) := by
    simp only [ei0.1, fun n => (ei n).1, f1, f2, fun n => (g n).1, fun n => (g n).2.1]
    exact ta
  have tap' : Tendsto (fun n => (s n).loads.ap) l (𝓝 s0.loads.ap) := by
    simp only [ei0.2, fun n => (ei n).2, f1, f2, fun n => (g n).1, fun n => (g n).2.1]
    exact tap
  have tW' : Tendsto (fun n => (s n).loads.W) l (𝓝 s0.loads.W) := by
    simp only [f3, fun n => (g n).2.2.1]
    exact tW
  have F0 := distributedAeroLoads_forces _ _ _ _ _ _ _ _ h0 i s0 hs0
  have F := fun n => distributedAeroLoads_forces _ _ _ _ _ _ _ _ (h n) i (s n) (hs n)
  have ts : Tendsto (fun n => sin (s n).phi) l (𝓝 (sin s0.phi)) := (continuous_sin.tendsto _).comp tphi
  have tc : Tendsto (fun n => cos (s n).phi) l (𝓝 (cos s0.phi)) := (continuous_cos.tendsto _).comp tphi
  have tq : Tendsto (fun n => (s n).loads.q) l (𝓝 s0.loads.q) := by
    simp only [F0.1, fun n => (F n).1]
    exact ((tW'.pow 2).const_mul _).div_const 2
  refine ⟨tphi, talpha, tcl', tcd', ta', tap', tW', ?_, ?_⟩
  · simp only [F0.2.1, fun n => (F n).2.1]
    exact (tq.mul_const _).mul ((tcl'.mul tc).add (tcd'.mul ts))
  · simp only [F0.2.2.1, fun n => (F n).2.2.1]
    exact (tq.mul_const _).mul ((tcl'.mul ts).sub (tcd'.mul tc))

end

/-! ## The rotor -/

section
variable {ι : Type*} {l : Filter ι}

theorem trapz_tendsto (m : ℕ) {f : ι → ℕ → ℝ} {f0 : ℕ → ℝ} (s : ℕ → ℝ) (hf : ∀ i < m + 1, Tendsto (fun n => f n i) l (𝓝 (f0 i))) :
    Tendsto (fun n => trapz m (f n) s) l (𝓝 (trapz m f0 s)) := by
  simp only [trapz, num_real, real_sumTo]
  refine tendsto_finsetSum _ fun i hi => ?_
  have hi := Finset.mem_range.mp hi
  exact (((hf i (by omega)).add (hf (i + 1) (by omega))).const_mul _).mul_const _

theorem padded_tendsto (m : ℕ) {f : ι → ℕ → ℝ} {f0 : ℕ → ℝ} (hf : ∀ i < m, Tendsto (fun n => f n i) l (𝓝 (f0 i))) {i : ℕ} (hi : i < m + 2) :
    Tendsto (fun n => padded m 0 (f n) 0 i) l (𝓝 (padded m 0 f0 0 i)) := by
  simp only [padded]
  split_ifs
  · exact tendsto_const_nhds
  · exact tendsto_const_nhds
  · exact hf _ (by omega)

/-- Blade integrals of converging loads converge. -/
theorem bladeInt_tendsto {R : Rotor ℝ} {L : ι → LoadsOut ℝ} {L0 : LoadsOut ℝ}
    (hN : ∀ i < R.n, Tendsto (fun n => stationArr (L n).stations SecLoads.Np i) l (𝓝 (stationArr L0.stations SecLoads.Np i)))
    (hT : ∀ i < R.n, Tendsto (fun n => stationArr (L n).stations SecLoads.Tp i) l (𝓝 (stationArr L0.stations SecLoads.Tp i))) :
    Tendsto (fun n => (bladeInt R (L n)).T) l (𝓝 (bladeInt R L0).T) ∧ Tendsto (fun n => (bladeInt R (L n)).Y) l (𝓝 (bladeInt R L0).Y) ∧
      Tendsto (fun n => (bladeInt R (L n)).Z) l (𝓝 (bladeInt R L0).Z) ∧ Tendsto (fun n => (bladeInt R (L n)).Q) l (𝓝 (bladeInt R L0).Q) ∧
      Tendsto (fun n => (bladeInt R (L n)).M) l (𝓝 (bladeInt R L0).M) := by
  simp only [bladeInt, thrustTorque]
  exact ⟨trapz_tendsto _ _ fun i hi => (padded_tendsto _ hN hi).mul_const _, trapz_tendsto _ _ fun i hi => padded_tendsto _ hT hi,
    trapz_tendsto _ _ fun i hi => (padded_tendsto _ hN hi).mul_const _, trapz_tendsto _ _ fun i hi => (padded_tendsto _ hT hi).mul_const _,
    trapz_tendsto _ _ fun i hi => (padded_tendsto _ hN hi).mul_const _⟩

/-- **C115** A call of `evaluate` with every station in attached flow: with root finders whose tolerance tends to zero, power, thrust,
torque, hub forces and moments and the blade root moment of every condition tend to those of an exact root finder. The blade may be
swept, curved, coned, and the rotor tilted and yawed. -/
theorem tolerance_rotor (bq0 : RootFinder ℝ) (hbq0 : ExactRoots bq0) (δ : ι → ℝ) (hδ : Tendsto δ l (𝓝 0)) (bq : ι → RootFinder ℝ)
    (hbq : ∀ n, BracketsRoots (δ n) (bq n)) (R : Rotor ℝ) (cs : List (Cond ℝ)) (co : Bool) (o0 : EvalOut ℝ) (o : ι → EvalOut ℝ)
    (h0 : (evaluate bq0 R cs co).2 = .ok o0) (h : ∀ n, (evaluate (bq n) R cs co).2 = .ok (o n)) (m : ℕ) (c : Cond ℝ) (x0 : CondOut ℝ)
    (x : ι → CondOut ℝ) (hc : cs[m]? = some c) (hx0 : o0.conds[m]? = some x0) (hx : ∀ n, (o n).conds[m]? = some (x n)) (hinv : R.inv = none)
    (hre : ∀ i < R.n, FixedRe R i) (hO : c.Omega ≠ 0)
    (hatt : ∀ k < R.nSector, ∀ i < R.n, AttachedStation R c.Uinf c.Omega c.pitch (k * (360 / R.nSector)) i)
    (hreg : ∀ k < R.nSector, ∀ i < R.n, ∀ p ∈ Set.Icc (1 / 1000000) (π / 2), RegularAngle R c.Uinf c.Omega c.pitch (k * (360 / R.nSector)) i p)
    (hcont : ∀ i < R.n, ∀ Re, Continuous fun a => (R.af i).evaluate a Re)
    (hexact : ∀ k < R.nSector, ∀ L, (distributedAeroLoads bq0 R c.Uinf c.Omega c.pitch (k * (360 / R.nSector))).2 = .ok L →
      ∀ (i : ℕ) (s : Station ℝ), L.stations[i]? = some s → s.warned = false ∧ s.phi ∈ Set.Ioo 0 (π / 2) ∧ 0 ≤ s.loads.cl) :
    Tendsto (fun n => (x n).P.val) l (𝓝 x0.P.val) ∧ Tendsto (fun n => (x n).acc.T.val) l (𝓝 x0.acc.T.val) ∧
      Tendsto (fun n => (x n).acc.Q.val) l (𝓝 x0.acc.Q.val) ∧ Tendsto (fun n => (x n).acc.Y.val) l (𝓝 x0.acc.Y.val) ∧
      Tendsto (fun n => (x n).acc.Z.val) l (𝓝 x0.acc.Z.val) ∧ Tendsto (fun n => (x n).acc.My.val) l (𝓝 x0.acc.My.val) ∧
      Tendsto (fun n => (x n).acc.Mz.val) l (𝓝 x0.acc.Mz.val) ∧ Tendsto (fun n => (x n).acc.Mb.val) l (𝓝 x0.acc.Mb.val) := by
  obtain ⟨L0, hL0, hT0, hQ0, hM0, hY0, hZ0, hMy0, hMz0, -⟩ := sector_averages h0 hc hx0
  choose L hL hT hQ hM hY hZ hMy hMz _ using fun n => sector_averages (h n) hc (hx n)
  have key : ∀ k < R.nSector, ∀ i < R.n,
      Tendsto (fun n => stationArr (L n k).stations SecLoads.Np i) l (𝓝 (stationArr (L0 k).stations SecLoads.Np i)) ∧
      Tendsto (fun n => stationArr (L n k).stations SecLoads.Tp i) l (𝓝 (stationArr (L0 k).stations SecLoads.Tp i)) := by
    intro k hk i hi
    have e0 : distributedAeroLoads bq0 R c.Uinf c.Omega c.pitch (k * (360 / R.nSector)) = (_, .ok (L0 k)) := Prod.ext rfl (hL0 k hk)
    have e : ∀ n, distributedAeroLoads (bq n) R c.Uinf c.Omega c.pitch (k * (360 / R.nSector)) = (_, .ok (L n k)) :=
      fun n => Prod.ext rfl (hL n k hk)
    obtain ⟨s0, hs0⟩ : ∃ s, (L0 k).stations[i]? = some s :=
      ⟨_, List.getElem?_eq_getElem (by rw [(solveStations_ok (distributedAeroLoads_stations e0)).1]; exact hi)⟩
    choose s hs using fun n => show ∃ s, (L n k).stations[i]? = some s from
      ⟨_, List.getElem?_eq_getElem (by rw [(solveStations_ok (distributedAeroLoads_stations (e n))).1]; exact hi)⟩
    obtain ⟨w, hphi, hcl⟩ := hexact k hk _ (hL0 k hk) i s0 hs0
    obtain ⟨-, -, -, -, -, -, -, tN, tT⟩ := tolerance_loads bq0 hbq0 δ hδ bq hbq hinv (hre i hi) hO (hatt k hk i hi) _ _ _ _ e0 e s0 s hs0 hs w hphi
      hcl (hreg k hk i hi) (hcont i hi _).continuousAt
    simp only [stationArr, hs0, hs]
    exact ⟨tN, tT⟩
  have blade := fun k hk => bladeInt_tendsto (R := R) (L := fun n => L n k) (L0 := L0 k) (fun i hi => (key k hk i hi).1) (fun i hi => (key k hk i hi).2)
  have mean : ∀ {f : ι → ℕ → ℝ} {f0 : ℕ → ℝ}, (∀ k < R.nSector, Tendsto (fun n => f n k) l (𝓝 (f0 k))) →
      Tendsto (fun n => (∑ k ∈ Finset.range R.nSector, f n k) / R.nSector) l (𝓝 ((∑ k ∈ Finset.range R.nSector, f0 k) / R.nSector)) :=
    fun hf => (tendsto_finsetSum _ fun k hk => hf k (Finset.mem_range.mp hk)).div_const _
  have tQ : Tendsto (fun n => (x n).acc.Q.val) l (𝓝 x0.acc.Q.val) := by
    simp only [hQ0, hQ]
    exact (mean fun k hk => (blade k hk).2.2.2.1).const_mul _
  refine ⟨?_, ?_, tQ, ?_, ?_, ?_, ?_, ?_⟩
  · have hP : ∀ n, (x n).P.val = (x n).acc.Q.val * c.Omega * π / 30 := fun n => by
      obtain ⟨_, hp, _⟩ := evaluate_entry (h n) hc (hx n)
      rw [hp]
      simp [power, num_real]
    have hP0 : x0.P.val = x0.acc.Q.val * c.Omega * π / 30 := by
      obtain ⟨_, hp, _⟩ := evaluate_entry h0 hc hx0
      rw [hp]
      simp [power, num_real]
    simp only [hP, hP0]
    exact ((tQ.mul_const _).mul_const _).div_const _
  · simp only [hT0, hT]
    exact (mean fun k hk => (blade k hk).1).const_mul _
  · simp only [hY0, hY]
    exact (mean fun k hk => ((blade k hk).2.1.const_mul _).sub ((blade k hk).2.2.1.const_mul _)).const_mul _
  · simp only [hZ0, hZ]
    exact (mean fun k hk => ((blade k hk).2.1.const_mul _).add ((blade k hk).2.2.1.const_mul _)).const_mul _
  · simp only [hMy0, hMy]
    exact (mean fun k hk => (blade k hk).2.2.2.2.const_mul _).const_mul _
  · simp only [hMz0, hMz]
    exact (mean fun k hk => (blade k hk).2.2.2.2.const_mul _).const_mul _
  · simp only [hM0, hM]
    exact mean fun k hk => (blade k hk).2.2.2.2

end

/-! ## An example -/

/-- The hypotheses of `tolerance_rotor` are met: thrust and power of a rotor with two stations, computed with tolerances `1/(n+1)`. -/
example : ∃ (o0 : EvalOut ℝ) (o : ℕ → EvalOut ℝ) (x0 : CondOut ℝ) (x : ℕ → CondOut ℝ),
    (evaluate someRoot featherRotor [⟨6, 30 / π, 0⟩] false).2 = .ok o0 ∧ o0.conds = [x0] ∧
    (∀ n : ℕ, (evaluate (someBracket (1 / ((n : ℝ) + 1))) featherRotor [⟨6, 30 / π, 0⟩] false).2 = .ok (o n) ∧ (o n).conds = [x n]) ∧
    Tendsto (fun n => (x n).P.val) atTop (𝓝 x0.P.val) ∧ Tendsto (fun n => (x n).acc.T.val) atTop (𝓝 x0.acc.T.val) := by
  have hpi := pi_gt_three
  have hO : 30 / π ≠ 0 := by positivity
  have total : ∀ bq, OnlyValueError bq → ∃ o x, (evaluate bq featherRotor [⟨6, 30 / π, 0⟩] false).2 = .ok o ∧ o.conds = [x] := by
    intro bq hbq
    obtain ⟨o, x, h, -⟩ := evaluate_total hbq featherRotor ⟨6, 30 / π, 0⟩ false (by simp [featherRotor, annulusRotor, demoRotor]) rfl hO
      (by simp [featherRotor, annulusRotor, demoRotor])
    obtain ⟨x, hx⟩ := List.length_eq_one_iff.mp (evaluate_length h)
    exact ⟨o, x, h, hx⟩
  obtain ⟨o0, x0, h0, hx0⟩ := total _ someRoot_onlyValueError
  choose o x h hx using fun n : ℕ => total _ (someBracket_onlyValueError (1 / ((n : ℝ) + 1)))
  obtain ⟨t1, t2, -⟩ := tolerance_rotor someRoot someRoot_exact (fun n : ℕ => 1 / ((n : ℝ) + 1)) tendsto_one_div_add_atTop_nhds_zero_nat _
    (fun n => someBracket_brackets (by positivity)) featherRotor _ false o0 o h0 h 0 _ x0 x rfl (by rw [hx0]; rfl) (fun n => by rw [hx n]; rfl) rfl
    (fun _ _ => .inr fun _ _ _ => rfl) hO
    (fun k _ i hi => by
      have hV := featherRotor_straight.wind 6 (30 / π) (k * (360 / featherRotor.nSector) * (π / 180)) hi
      have hc := featherRotor_straight.cos_pos
      have hr := featherRotor_straight.range hi
      have hri : 0 < featherRotor.r i := featherRotor_straight.hub.trans hr.1
      refine ⟨by simp [featherRotor, annulusRotor, demoRotor], featherRotor_straight.hub, hr.1, hr.2, by simp only [featherRotor, annulusRotor]; positivity,
        by rw [hV]; positivity, by rw [hV]; positivity, ?_⟩
      refine attachedFlow_of_constant_drag (by simp [featherRotor, annulusRotor, demoRotor]) featherRotor_straight.hub hr.1 hr.2 (fun a b c => ?_)
        fun _ => ⟨0, le_rfl, fun _ _ _ => by simp only [featherRotor_polar]⟩
      simp only [featherRotor_polar, zero_mul, sub_zero]
      linarith [sin_le_sin_of_le_of_le_pi_div_two (by linarith) c b])
    (fun k _ i _ p hp => featherRotor_regular _ _ _ _ i (lt_of_lt_of_le (by norm_num) hp.1) hp.2)
    (fun i _ Re => by simp only [featherRotor, annulusRotor]; fun_prop)
    (fun k hk L hL i s hs => by
      have e : distributedAeroLoads someRoot featherRotor 6 (30 / π) 0 (k * (360 / featherRotor.nSector)) = (_, .ok L) := Prod.ext rfl hL
      obtain ⟨w, hphi⟩ := featherRotor_station le_rfl e hs
      have hi := (loads_station e hs).1
      have hV := featherRotor_straight.wind 6 (30 / π) (k * (360 / featherRotor.nSector) * (π / 180)) hi
      have hc := featherRotor_straight.cos_pos
      have hri : 0 < featherRotor.r i := featherRotor_straight.hub.trans (featherRotor_straight.range hi).1
      obtain ⟨f1, -⟩ := station_facts (R := featherRotor) rfl (.inr fun _ _ _ => rfl) e hO hs hV (by positivity) (by positivity)
      rw [featherRotor_polar] at f1
      refine ⟨w, hphi, ?_⟩
      rw [f1]
      have := neg_one_le_sin (s.phi - 0 * (π / 180))
      simp only
      linarith)
  exact ⟨o0, o, x0, x, h0, hx0, fun n => ⟨h n, hx n⟩, t1, t2⟩

end Verif
