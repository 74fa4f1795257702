import Verif.Props.Polars
import Verif.Lemmas.Extrapolate

/-!
# The correction for rotation (C64)
-/

namespace Verif

/-- Du and Selig's factor: fitted slope `m`, local chord over radius `c`, exponent `k`. -/
noncomputable def duSelig (m c k : ℝ) : ℝ := (1 / m) * ((1.6 * c / 0.1267) * ((1 - c ^ k) / (1 + c ^ k)) - 1)

/-- Their exponent `R / (Λ r)` with `Λ = tsr / √(1 + tsr²)`. -/
noncomputable def duSeligExp (x : Corr3D ℝ) : ℝ := 1 / (x.tsr / √(1 + x.tsr ^ 2) * x.rOverR)

theorem onPolyline_deg {pts : List (ℝ × ℝ)} {x y : ℝ}
    (h : OnPolyline (pts.map (Prod.map deg2rad id)) (deg2rad x) y) : OnPolyline pts x y := by
  have hinj : ∀ {u w : ℝ}, deg2rad u = deg2rad w → u = w := fun {u w} h => by rw [← rad_deg u, h, rad_deg]
  have hle : ∀ {u w : ℝ}, deg2rad u ≤ deg2rad w → u ≤ w := fun h => by
    have := rad2deg_le h; rwa [rad_deg, rad_deg] at this
  rcases h with h | ⟨i, p, q, hp, hq, h1, h2, h3⟩
  · left
    obtain ⟨⟨u, w⟩, hm, he⟩ := List.mem_map.mp h
    simp only [Prod.map_apply, id_eq, Prod.mk.injEq] at he
    rw [← hinj he.1, ← he.2]
    exact hm
  · right
    rw [List.getElem?_map, Option.map_eq_some_iff] at hp hq
    obtain ⟨p', hp', rfl⟩ := hp
    obtain ⟨q', hq', rfl⟩ := hq
    simp only [Prod.map_fst, Prod.map_snd, id_eq] at h1 h2 h3
    refine ⟨i, p', q', hp', hq', hle h1, hle h2, ?_⟩
    simp only [num_real] at h3
    have hpi : (Real.pi / 180 : ℝ) ≠ 0 := by have := Real.pi_pos; positivity
    refine mul_right_cancel₀ hpi ?_
    linarith [h3]

theorem atClamped_deg (p : Polar ℝ) (c : Col) (x y : ℝ)
    (h : Polar.AtClamped ⟨p.Re, p.alpha.map deg2rad, p.cl, p.cd, p.cm⟩ c (deg2rad x) y) : p.AtClamped c x y := by
  have hlt : ∀ {u w : ℝ}, deg2rad u < deg2rad w → u < w := fun h => by
    have := rad2deg_lt h; rwa [rad_deg, rad_deg] at this
  have hcol : Polar.col ⟨p.Re, p.alpha.map deg2rad, p.cl, p.cd, p.cm⟩ c = p.col c := by cases c <;> rfl
  unfold Polar.AtClamped Polar.At at h ⊢
  rw [hcol] at h
  rcases h with h | ⟨h, h'⟩ | ⟨h, h'⟩
  · left
    simp only [List.zip_map_left] at h
    exact onPolyline_deg h
  · exact .inr (.inl ⟨fun a ha => hlt (h _ (List.mem_map_of_mem ha)), h'⟩)
  · exact .inr (.inr ⟨fun a ha => hlt (h _ (List.mem_map_of_mem ha)), h'⟩)

theorem corrFactor_real (m c k : ℝ) : corrFactor m c k = duSelig m c k := by
  simp only [corrFactor, duSelig, num_real]
  norm_num
  left
  ring

theorem adj_real (mx a : ℝ) : corrAdj (deg2rad mx) (deg2rad a) =
    if a ≤ mx then 1 else ((90 - a) / (90 - mx)) ^ 2 := by
  unfold corrAdj
  by_cases h : a ≤ mx
  · rw [if_pos h, if_pos (deg2rad_le h)]
  · rw [if_neg h, if_neg (not_le.mpr (deg2rad_lt (not_le.mp h)))]
    simp only [num_real]
    push_cast
    have hpi : (Real.pi / 180 : ℝ) ≠ 0 := by have := Real.pi_pos; positivity
    rw [show Real.pi / 2 - a * (Real.pi / 180) = (90 - a) * (Real.pi / 180) by ring,
      show Real.pi / 2 - mx * (Real.pi / 180) = (90 - mx) * (Real.pi / 180) by ring, mul_div_mul_right _ _ hpi]

/-- **C64** The corrected polar keeps Reynolds number, angles and moments.  At each angle the lift is moved by Du and Selig's multiple of
its distance from the fitted line `m * alpha + b`, times a factor that is 1 up to `alpha_max_corr` and otherwise the square of
`(90 - alpha) / (90 - alpha_max_corr)`; the drag is moved by a fixed multiple of its distance from the drag at zero angle. -/
theorem correction3D_spec (fit : PolyFit ℝ) (p : Polar ℝ) (hp : p.WF) (x : Corr3D ℝ) (m b : ℝ) (hm : m ≠ 0)
    (hfit : fit (((p.alpha.map deg2rad).zip p.cl).filter
      (fun q => deg2rad x.alphaLinearMin ≤ q.1 ∧ q.1 ≤ deg2rad x.alphaLinearMax)) = .ok (m, b)) :
    ∃ (q : Polar ℝ) (cd0 : ℝ), p.correction3D fit x = .ok q ∧ q.Re = p.Re ∧ q.alpha = p.alpha ∧ q.cm = p.cm ∧
      (∀ c, (q.col c).length = q.alpha.length) ∧ p.AtClamped .cd 0 cd0 ∧
      ∀ (i : ℕ) (a cl cd : ℝ), p.alpha[i]? = some a → p.cl[i]? = some cl → p.cd[i]? = some cd →
        (a ≤ x.alphaMaxCorr → q.cl[i]? = some (cl + duSelig m x.chordOverR (duSeligExp x) * (m * deg2rad a + b - cl))) ∧
        (x.alphaMaxCorr < a → q.cl[i]? = some (cl + duSelig m x.chordOverR (duSeligExp x) * (m * deg2rad a + b - cl) *
          ((90 - a) / (90 - x.alphaMaxCorr)) ^ 2)) ∧
        q.cd[i]? = some (cd + duSelig m x.chordOverR (duSeligExp x / 2) * (cd - cd0)) := by
  have hcl : p.cl.length = p.alpha.length := hp.len .cl
  have hcd : p.cd.length = p.alpha.length := hp.len .cd
  have hcm : p.cm.length = p.alpha.length := hp.len .cm
  set p' : Polar ℝ := ⟨p.Re, p.alpha.map deg2rad, p.cl, p.cd, p.cm⟩ with hp'
  have hwf' : p'.WF := ⟨by simp [hp', hp.ne], by
    simp only [hp', List.pairwise_map]; exact hp.inc.imp fun h => deg2rad_lt h, by
    intro c; cases c <;> simp [hp', Polar.col, hcl, hcd, hcm]⟩
  have hdeg : (p.alpha.map deg2rad).map rad2deg = p.alpha := by
    rw [List.map_map]
    conv_rhs => rw [← List.map_id p.alpha]
    exact List.map_congr_left fun a _ => rad_deg a
  have hk : (1 : ℝ) / (x.tsr / Num.pow (1 + sq x.tsr) (1 / Num.nat 2)) / x.rOverR = duSeligExp x := by
    simp only [duSeligExp, num_real, Nat.cast_ofNat]
    rw [← Real.sqrt_eq_rpow, div_div]
  have hi := npInterps_ok [0] (p.alpha.map deg2rad) p.cd (by simp [hcd]) (by simp [hp.ne])
  set cd0 := interpVal (p.alpha.map deg2rad) p.cd 0 with hcd0
  have hok : p.correction3D fit x = .ok ⟨p.Re, p.alpha,
      List.zipWith (fun a c => c + duSelig m x.chordOverR (duSeligExp x) * (m * (a - -b / m) - c) * corrAdj (deg2rad x.alphaMaxCorr) a)
        (p.alpha.map deg2rad) p.cl,
      List.zipWith (fun c c0 => c + duSelig m x.chordOverR (duSeligExp x / 2) * (c - c0)) p.cd (List.replicate p.cd.length cd0),
      p.cm⟩ := by
    unfold Polar.correction3D
    simp only [bind, Except.bind, pure, Except.pure]
    rw [hfit]
    simp only []
    rw [hi, hdeg, hk]
    simp only [corrFactor_real, List.map_cons, List.map_nil, List.headD_cons, real_nat, Nat.cast_ofNat, ← hcd0]
  refine ⟨_, cd0, hok, rfl, rfl, rfl, fun c => ?_, ?_, ?_⟩
  · cases c <;> simp [Polar.col, hcl, hcd, hcm]
  · have := interpVal_clamped p' hwf' .cd 0
    refine atClamped_deg p .cd 0 cd0 ?_
    have h0 : deg2rad (0 : ℝ) = 0 := by simp [num_real]
    rw [h0]
    exact this
  · intro i a cl cd ha hcl' hcd'
    have hline : m * (deg2rad a - -b / m) = m * deg2rad a + b := by field_simp; ring
    have hlt : i < p.cd.length := (List.getElem?_eq_some_iff.mp hcd').1
    refine ⟨fun h => ?_, fun h => ?_, ?_⟩
    · simp only [List.getElem?_zipWith, List.getElem?_map, ha, hcl', Option.map_some, adj_real, if_pos h, hline, mul_one]
    · simp only [List.getElem?_zipWith, List.getElem?_map, ha, hcl', Option.map_some, adj_real, if_neg (not_le.mpr h), hline]
    · simp only [List.getElem?_zipWith, hcd', List.getElem?_replicate, if_pos hlt]

/-- **C64** The lift is unchanged where it lies on the fitted line, at 90 degrees, and everywhere when the factor vanishes; between
`alpha_max_corr` and 90 degrees the change is smaller than the full correction. -/
theorem correction3D_reverts (fit : PolyFit ℝ) (p q : Polar ℝ) (hp : p.WF) (x : Corr3D ℝ) (m b : ℝ) (hm : m ≠ 0)
    (hfit : fit (((p.alpha.map deg2rad).zip p.cl).filter
      (fun q => deg2rad x.alphaLinearMin ≤ q.1 ∧ q.1 ≤ deg2rad x.alphaLinearMax)) = .ok (m, b))
    (h : p.correction3D fit x = .ok q) (i : ℕ) (a cl cl' : ℝ) (ha : p.alpha[i]? = some a) (hcl : p.cl[i]? = some cl)
    (hcl' : q.cl[i]? = some cl') :
    (cl = m * deg2rad a + b → cl' = cl) ∧
    (a = 90 → x.alphaMaxCorr < 90 → cl' = cl) ∧
    (duSelig m x.chordOverR (duSeligExp x) = 0 → cl' = cl) ∧
    (x.alphaMaxCorr < a → a ≤ 90 →
      |cl' - cl| ≤ |duSelig m x.chordOverR (duSeligExp x) * (m * deg2rad a + b - cl)|) := by
  obtain ⟨q', cd0, hok, _, _, _, hlen, _, hrow⟩ := correction3D_spec fit p hp x m b hm hfit
  rw [hok] at h
  obtain rfl := Except.ok.inj h
  have hi : i < p.cd.length := by
    have h1 := (List.getElem?_eq_some_iff.mp ha).1
    have h2 : p.cd.length = p.alpha.length := hp.len .cd
    omega
  obtain ⟨h1, h2, _⟩ := hrow i a cl _ ha hcl (List.getElem?_eq_getElem hi)
  have hval : (a ≤ x.alphaMaxCorr → cl' = cl + duSelig m x.chordOverR (duSeligExp x) * (m * deg2rad a + b - cl)) ∧
      (x.alphaMaxCorr < a → cl' = cl + duSelig m x.chordOverR (duSeligExp x) * (m * deg2rad a + b - cl) *
          ((90 - a) / (90 - x.alphaMaxCorr)) ^ 2) :=
    ⟨fun h => by have := h1 h; rw [hcl'] at this; exact Option.some.inj this,
      fun h => by have := h2 h; rw [hcl'] at this; exact Option.some.inj this⟩
  refine ⟨fun he => ?_, fun he hx => ?_, fun he => ?_, fun he h90 => ?_⟩
  · rcases le_or_gt a x.alphaMaxCorr with h | h
    · rw [hval.1 h, he]; ring
    · rw [hval.2 h, he]; ring
  · subst he
    rw [hval.2 hx]; simp
  · rcases le_or_gt a x.alphaMaxCorr with h | h
    · rw [hval.1 h, he]; ring
    · rw [hval.2 h, he]; ring
  · rw [hval.2 he, add_sub_cancel_left, abs_mul]
    refine mul_le_of_le_one_right (abs_nonneg _) ?_
    have h0 : 0 ≤ (90 - a) / (90 - x.alphaMaxCorr) := div_nonneg (by linarith) (by linarith)
    have h1' : (90 - a) / (90 - x.alphaMaxCorr) ≤ 1 := (div_le_one (by linarith)).mpr (by linarith)
    rw [abs_of_nonneg (by positivity)]
    exact pow_le_one₀ h0 h1'

/-- **C64** Beyond 90 degrees the correction comes back: at 180 degrees (with the full correction up to 30 degrees) the lift is moved by
9/4 of the full correction. -/
theorem correction3D_returns (fit : PolyFit ℝ) (p q : Polar ℝ) (hp : p.WF) (x : Corr3D ℝ) (m b : ℝ) (hm : m ≠ 0)
    (hfit : fit (((p.alpha.map deg2rad).zip p.cl).filter
      (fun q => deg2rad x.alphaLinearMin ≤ q.1 ∧ q.1 ≤ deg2rad x.alphaLinearMax)) = .ok (m, b))
    (h : p.correction3D fit x = .ok q) (hx : x.alphaMaxCorr = 30) (i : ℕ) (cl cl' : ℝ) (ha : p.alpha[i]? = some 180)
    (hcl : p.cl[i]? = some cl) (hcl' : q.cl[i]? = some cl') :
    cl' - cl = 9 / 4 * (duSelig m x.chordOverR (duSeligExp x) * (m * Real.pi + b - cl)) := by
  obtain ⟨q', cd0, hok, _, _, _, hlen, _, hrow⟩ := correction3D_spec fit p hp x m b hm hfit
  rw [hok] at h
  obtain rfl := Except.ok.inj h
  have hi : i < p.cd.length := by
    have h1 := (List.getElem?_eq_some_iff.mp ha).1
    have h2 : p.cd.length = p.alpha.length := hp.len .cd
    omega
  obtain ⟨_, h2, _⟩ := hrow i 180 cl _ ha hcl (List.getElem?_eq_getElem hi)
  have hv := h2 (by rw [hx]; norm_num)
  rw [hcl'] at hv
  rw [Option.some.inj hv, hx]
  have : deg2rad (180 : ℝ) = Real.pi := by rw [← rad2deg_pi, deg_rad]
  rw [this]
  ring

/-- The hypotheses are met: a fit through the origin with slope 6. -/
example : ∃ q, widePolar.correction3D (fun _ => .ok (6, 0)) ⟨1 / 2, 1 / 10, 7, 30, -5, 5⟩ = .ok q ∧ q.alpha = [-10, 0, 10] := by
  obtain ⟨q, _, h, _, h2, _⟩ := correction3D_spec (fun _ => .ok (6, 0)) widePolar widePolar_wf ⟨1 / 2, 1 / 10, 7, 30, -5, 5⟩ 6 0
    (by norm_num) rfl
  exact ⟨q, h, h2⟩

end Verif
