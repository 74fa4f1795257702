import Verif.Model.BemDv
import Verif.Lemmas.Atan2
import Verif.Props.Geometry
import Mathlib.Analysis.SpecialFunctions.Pow.Deriv
import Mathlib.Analysis.SpecialFunctions.Sqrt
import Mathlib.Analysis.SpecialFunctions.Trigonometric.Deriv

/-!
# Forward derivatives of the blade geometry and of the inflow (C22, C23, C25)

The blade moves along differentiable curves of its stations; `R s i` is the value at station `i` at curve parameter `s`.
-/

namespace Verif

open Filter Topology

/-! ## Specification -/

/-- A curve of blade shapes (`n` stations of radius, precurve and presweep, and the precone angle) with velocity
`rd, pcd, psd, pd` at `t`. -/
structure BladeDeriv (n : ℕ) (R PC PS : ℝ → ℕ → ℝ) (P : ℝ → ℝ) (rd pcd psd : ℕ → ℝ) (pd t : ℝ) : Prop where
  r : ∀ i < n, HasDerivAt (fun s => R s i) (rd i) t
  pc : ∀ i < n, HasDerivAt (fun s => PC s i) (pcd i) t
  ps : ∀ i < n, HasDerivAt (fun s => PS s i) (psd i) t
  p : HasDerivAt P pd t

/-- The outward component of every segment, in the azimuth frame, is not directed exactly inwards: the angle
`atan2` of the segment is a differentiable function of its end points. -/
def ConeRegular (n : ℕ) (r pc : ℕ → ℝ) (p : ℝ) : Prop :=
  ∀ i, i + 1 < n →
    0 < (r (i + 1) - r i) * Real.cos p + (pc (i + 1) - pc i) * Real.sin p ∨
    (pc (i + 1) - pc i) * Real.cos p - (r (i + 1) - r i) * Real.sin p ≠ 0

/-- Consecutive stations are different points. -/
def Distinct (n : ℕ) (r pc ps : ℕ → ℝ) : Prop :=
  ∀ i, i + 1 < n → (pc (i + 1) - pc i) ^ 2 + (ps (i + 1) - ps i) ^ 2 + (r (i + 1) - r i) ^ 2 ≠ 0

/-! ## Helpers -/

theorem xAzDv_fst (r pc rd pcd : ℕ → ℝ) (p pd : ℝ) (i : ℕ) : (xAzDv r pc rd pcd p pd i).1 = xAz r pc p i := by
  simp only [xAzDv, xAz]; ring
theorem zAzDv_fst (r pc rd pcd : ℕ → ℝ) (p pd : ℝ) (i : ℕ) : (zAzDv r pc rd pcd p pd i).1 = zAz r pc p i := by
  simp only [zAzDv, zAz]

section
variable {n : ℕ} {R PC PS : ℝ → ℕ → ℝ} {P : ℝ → ℝ} {rd pcd psd : ℕ → ℝ} {pd t : ℝ}

theorem xAz_deriv (h : BladeDeriv n R PC PS P rd pcd psd pd t) (i : ℕ) (hi : i < n) :
    HasDerivAt (fun s => xAz (R s) (PC s) (P s) i) (xAzDv (R t) (PC t) rd pcd (P t) pd i).2 t := by
  simp only [xAz, xAzDv, num_real]
  refine (((h.r i hi).neg.mul h.p.sin).add ((h.pc i hi).mul h.p.cos)).congr_deriv ?_
  simp only [Pi.neg_apply]
  ring

theorem zAz_deriv (h : BladeDeriv n R PC PS P rd pcd psd pd t) (i : ℕ) (hi : i < n) :
    HasDerivAt (fun s => zAz (R s) (PC s) (P s) i) (zAzDv (R t) (PC t) rd pcd (P t) pd i).2 t := by
  simp only [zAz, zAzDv, num_real]
  refine (((h.r i hi).mul h.p.cos).add ((h.pc i hi).mul h.p.sin)).congr_deriv ?_
  ring

theorem segAngle_deriv {x z : ℝ → ℕ → ℝ} {xd zd : ℕ → ℝ} {i : ℕ}
    (hx0 : HasDerivAt (fun s => x s i) (xd i) t) (hx1 : HasDerivAt (fun s => x s (i + 1)) (xd (i + 1)) t)
    (hz0 : HasDerivAt (fun s => z s i) (zd i) t) (hz1 : HasDerivAt (fun s => z s (i + 1)) (zd (i + 1)) t)
    (h : 0 < z t (i + 1) - z t i ∨ x t (i + 1) - x t i ≠ 0) :
    HasDerivAt (fun s => segAngle (x s) (z s) i) (segAngleDv (x t) (z t) xd zd i) t := by
  have hy : HasDerivAt (fun s => -(x s (i + 1) - x s i)) (xd i - xd (i + 1)) t :=
    (hx1.sub hx0).neg.congr_deriv (by ring)
  have hz : HasDerivAt (fun s => z s (i + 1) - z s i) (zd (i + 1) - zd i) t := hz1.sub hz0
  have := atan2_hasDerivAt hy hz (h.imp id neg_ne_zero.mpr)
  refine this.congr_deriv ?_
  simp only [segAngleDv, real_sq]

theorem coneRegular_seg {i : ℕ} (hc : ConeRegular n (R t) (PC t) (P t)) (hi : i + 1 < n) :
    0 < zAz (R t) (PC t) (P t) (i + 1) - zAz (R t) (PC t) (P t) i ∨
    xAz (R t) (PC t) (P t) (i + 1) - xAz (R t) (PC t) (P t) i ≠ 0 := by
  have := hc i hi
  simp only [xAz, zAz, num_real]
  refine this.imp (fun h => ?_) (fun h h' => h ?_) <;> linarith

theorem cone_deriv (hn : 2 ≤ n) (h : BladeDeriv n R PC PS P rd pcd psd pd t) (hc : ConeRegular n (R t) (PC t) (P t))
    (i : ℕ) (hi : i < n) :
    HasDerivAt (fun s => coneAngle n (xAz (R s) (PC s) (P s)) (zAz (R s) (PC s) (P s)) i)
      (coneDv n (xAz (R t) (PC t) (P t)) (zAz (R t) (PC t) (P t))
        (fun i => (xAzDv (R t) (PC t) rd pcd (P t) pd i).2) (fun i => (zAzDv (R t) (PC t) rd pcd (P t) pd i).2) i) t := by
  have seg : ∀ j, j + 1 < n → HasDerivAt (fun s => segAngle (xAz (R s) (PC s) (P s)) (zAz (R s) (PC s) (P s)) j)
      (segAngleDv (xAz (R t) (PC t) (P t)) (zAz (R t) (PC t) (P t))
        (fun i => (xAzDv (R t) (PC t) rd pcd (P t) pd i).2) (fun i => (zAzDv (R t) (PC t) rd pcd (P t) pd i).2) j) t :=
    fun j hj => segAngle_deriv (x := fun s => xAz (R s) (PC s) (P s)) (z := fun s => zAz (R s) (PC s) (P s))
      (xAz_deriv h j (by omega)) (xAz_deriv h (j + 1) hj) (zAz_deriv h j (by omega)) (zAz_deriv h (j + 1) hj)
      (coneRegular_seg hc hj)
  unfold coneAngle coneDv
  split_ifs with h0 h1
  · exact seg 0 (by omega)
  · exact seg (n - 2) (by omega)
  · obtain ⟨j, rfl⟩ : ∃ j, i = j + 1 := ⟨i - 1, by omega⟩
    have := ((seg j (by omega)).add (seg (j + 1) (by omega))).const_mul (1 / Num.nat 2 : ℝ)
    refine this.congr_deriv ?_
    simp only [segAngleDv, Nat.add_sub_cancel]
    ring

theorem segLength_deriv (h : BladeDeriv n R PC PS P rd pcd psd pd t) (hd : Distinct n (R t) (PC t) (PS t))
    (i : ℕ) (hi : i + 1 < n) :
    HasDerivAt (fun s => segLength (R s) (PC s) (PS s) i) (segLengthDv (R t) (PC t) (PS t) rd pcd psd i) t := by
  have h0 := hd i hi
  have hi' : i < n := by omega
  have := ((((h.pc (i + 1) hi).sub (h.pc i hi')).pow 2).add (((h.ps (i + 1) hi).sub (h.ps i hi')).pow 2)).add
    (((h.r (i + 1) hi).sub (h.r i hi')).pow 2)
  have := this.sqrt h0
  refine (this.congr_deriv ?_).congr_of_eventuallyEq (Eventually.of_forall fun s => ?_)
  · simp only [segLengthDv, num_real, h0, decide_false, Bool.false_eq_true, if_false, Pi.add_apply, Pi.pow_apply,
      Pi.sub_apply]
    push_cast
    congr 1
    ring
  · simp only [segLength, num_real, Pi.add_apply, Pi.pow_apply, Pi.sub_apply]

theorem pathLength_deriv (h : BladeDeriv n R PC PS P rd pcd psd pd t) (hd : Distinct n (R t) (PC t) (PS t)) :
    ∀ i, i < n → HasDerivAt (fun s => pathLength (R s) (PC s) (PS s) i)
      (pathLengthDv (R t) (PC t) (PS t) rd pcd psd i) t
  | 0, _ => hasDerivAt_const t (0 : ℝ)
  | i + 1, hi => (pathLength_deriv h hd i (by omega)).add (segLength_deriv h hd i hi)

end

/-! ## C23, C25 -/

/-- **C25** The derivative routines of the geometry return the same values as the routine itself. -/
theorem defineCurvatureDv2_values (n : ℕ) (r pc ps rd pcd psd : ℕ → ℝ) (p pd : ℝ) :
    let c := defineCurvature n r pc ps p
    let e := defineCurvatureDv2 n r pc ps rd pcd psd p pd
    e.x_az = c.x_az ∧ e.y_az = c.y_az ∧ e.z_az = c.z_az ∧ e.cone = c.cone ∧ e.s = c.s := by
  refine ⟨?_, rfl, ?_, ?_, rfl⟩ <;>
    simp only [defineCurvature, defineCurvatureDv2, xAzDv_fst, zAzDv_fst] <;> rfl

/-- **C23** The derivative routines of the geometry return the derivatives of the azimuth-frame coordinates and of the
cone angle along every curve of blade shapes. -/
theorem defineCurvatureDv2_correct (n : ℕ) (hn : 2 ≤ n) (R PC PS : ℝ → ℕ → ℝ) (P : ℝ → ℝ) (rd pcd psd : ℕ → ℝ)
    (pd t : ℝ) (h : BladeDeriv n R PC PS P rd pcd psd pd t) (hc : ConeRegular n (R t) (PC t) (P t))
    (i : ℕ) (hi : i < n) :
    let c := fun s => defineCurvature n (R s) (PC s) (PS s) (P s)
    let e := defineCurvatureDv2 n (R t) (PC t) (PS t) rd pcd psd (P t) pd
    HasDerivAt (fun s => (c s).x_az i) (e.x_azd i) t ∧
    HasDerivAt (fun s => (c s).y_az i) (e.y_azd i) t ∧
    HasDerivAt (fun s => (c s).z_az i) (e.z_azd i) t ∧
    HasDerivAt (fun s => (c s).cone i) (e.coned i) t := by
  simp only [defineCurvature, defineCurvatureDv2, xAzDv_fst, zAzDv_fst]
  exact ⟨xAz_deriv h i hi, h.ps i hi, zAz_deriv h i hi, cone_deriv hn h hc i hi⟩

/-- **C23** The derivative of the path length. -/
theorem defineCurvatureDv2_path (n : ℕ) (R PC PS : ℝ → ℕ → ℝ) (P : ℝ → ℝ) (rd pcd psd : ℕ → ℝ)
    (pd t : ℝ) (h : BladeDeriv n R PC PS P rd pcd psd pd t) (hd : Distinct n (R t) (PC t) (PS t))
    (i : ℕ) (hi : i < n) :
    HasDerivAt (fun s => (defineCurvature n (R s) (PC s) (PS s) (P s)).s i)
      ((defineCurvatureDv2 n (R t) (PC t) (PS t) rd pcd psd (P t) pd).sd i) t :=
  pathLength_deriv h hd i hi

/-- A blade with increasing radius and small precone and precurve slopes meets the hypotheses. -/
example : ConeRegular 4 (fun i => 1 + 2 * (i : ℝ)) (fun i => (i : ℝ) ^ 2) 0 ∧
    Distinct 4 (fun i => 1 + 2 * (i : ℝ)) (fun i => (i : ℝ) ^ 2) (fun i => (i : ℝ)) := by
  constructor
  · intro i _
    left
    push_cast
    simp
  · intro i _
    push_cast
    have : (1 + 2 * ((i : ℝ) + 1) - (1 + 2 * (i : ℝ))) = 2 := by ring
    rw [this]
    positivity

/-! ## C22 -/

/-- The curve `X` of inflow parameters has velocity `d` at `t`. -/
structure WindIn.HasDeriv (X : ℝ → WindIn ℝ) (d : WindIn ℝ) (t : ℝ) : Prop where
  precone : HasDerivAt (fun s => (X s).precone) d.precone t
  yaw : HasDerivAt (fun s => (X s).yaw) d.yaw t
  tilt : HasDerivAt (fun s => (X s).tilt) d.tilt t
  azimuth : HasDerivAt (fun s => (X s).azimuth) d.azimuth t
  Uinf : HasDerivAt (fun s => (X s).Uinf) d.Uinf t
  OmegaRPM : HasDerivAt (fun s => (X s).OmegaRPM) d.OmegaRPM t
  hubHt : HasDerivAt (fun s => (X s).hubHt) d.hubHt t
  shearExp : HasDerivAt (fun s => (X s).shearExp) d.shearExp t

/-- The primal routine. -/
noncomputable def WindIn.eval (n : ℕ) (r pc ps : ℕ → ℝ) (x : WindIn ℝ) (i : ℕ) : ℝ × ℝ :=
  windComponents n r pc ps x.precone x.yaw x.tilt x.azimuth x.Uinf x.OmegaRPM x.hubHt x.shearExp i

/-- Relative height above ground `1 + height/hubHt` of station `i`. -/
noncomputable def relHeight (r pc ps : ℕ → ℝ) (x : WindIn ℝ) (i : ℕ) : ℝ :=
  1 + ((ps i * Real.sin x.azimuth
      + (r i * Real.cos x.precone + pc i * Real.sin x.precone) * Real.cos x.azimuth) * Real.cos x.tilt
    - (pc i * Real.cos x.precone - r i * Real.sin x.precone) * Real.sin x.tilt) / x.hubHt

theorem relHeight_eq (r pc ps : ℕ → ℝ) (x : WindIn ℝ) (i : ℕ) :
    1 + heightFromHub (xAz r pc x.precone i) (yAz ps i) (zAz r pc x.precone i) x.tilt x.azimuth / x.hubHt
      = relHeight r pc ps x i := by
  simp only [heightFromHub, xAz, yAz, zAz, relHeight, num_real]
  congr 2
  ring

theorem intc_real (z : ℤ) : (intc z : ℝ) = (z : ℝ) := by
  cases z with
  | ofNat n => simp [intc, num_real]
  | negSucc n => simp only [intc, num_real, Int.cast_negSucc]

theorem trunc_int (m : ℤ) : Num.trunc (m : ℝ) = m := by
  simp [num_real]

/-- The power along a curve: above ground, or below ground with a fixed integer exponent. -/
theorem powDv_deriv {f e : ℝ → ℝ} {f' e' t : ℝ} (hf : HasDerivAt f f' t) (he : HasDerivAt e e' t)
    (h : 0 < f t ∨ (f t < 0 ∧ ∃ m : ℤ, ∀ s, e s = m)) :
    HasDerivAt (fun s => Num.pow (f s) (e s)) (powDv (f t) (e t) f' e') t := by
  rcases h with h | ⟨h, m, hm⟩
  · simp only [powDv, not_le.mpr h, decide_false, Bool.false_and, Bool.false_eq_true, if_false, num_real]
    exact (hf.rpow he h).congr_deriv (by ring)
  · have e0 : e' = 0 := by
      have : e = fun _ => (m : ℝ) := funext hm
      rw [this] at he
      exact he.unique (hasDerivAt_const t _)
    have hd : HasDerivAt (fun s => f s ^ (m : ℝ)) (f' * (m : ℝ) * f t ^ ((m : ℝ) - 1)) t :=
      hf.rpow_const (Or.inl h.ne)
    simp only [powDv, h.le, decide_true, Bool.true_and, hm, trunc_int, intc_real, real_beq, Bool.not_true,
      Bool.or_false, decide_true, if_true, num_real]
    by_cases hm0 : (m : ℝ) = 0
    · simp only [hm0, decide_true, if_true]
      simp only [Real.rpow_zero]
      exact hasDerivAt_const t _
    · simp only [hm0, decide_false, Bool.false_eq_true, if_false]
      exact hd.congr_deriv (by ring)

/-- **C25** The derivative routine of the inflow returns the same values as the routine itself. -/
theorem windComponentsDv_values (n : ℕ) (r pc ps rd pcd psd : ℕ → ℝ) (x d : WindIn ℝ) (i : ℕ) :
    (windComponentsDv n r pc ps rd pcd psd x d i).1.1 = (x.eval n r pc ps i).1 ∧
    (windComponentsDv n r pc ps rd pcd psd x d i).2.1 = (x.eval n r pc ps i).2 := by
  obtain ⟨h1, h2, h3, h4, -⟩ := defineCurvatureDv2_values n r pc ps rd pcd psd x.precone d.precone
  simp only [windComponentsDv, WindIn.eval, windComponents, h1, h2, h3, h4, shearedWind, heightFromHub]
  refine ⟨?_, trivial⟩
  ring

/-- **C22** The derivative routine of the inflow returns the derivatives of both velocity components at every station
along every curve of blade shapes and inflow parameters, for stations above ground (or, below ground, for a fixed
integer shear exponent). -/
theorem windComponentsDv_correct (n : ℕ) (hn : 2 ≤ n) (R PC PS : ℝ → ℕ → ℝ) (rd pcd psd : ℕ → ℝ)
    (X : ℝ → WindIn ℝ) (d : WindIn ℝ) (t : ℝ)
    (h : BladeDeriv n R PC PS (fun s => (X s).precone) rd pcd psd d.precone t)
    (hX : WindIn.HasDeriv X d t) (hc : ConeRegular n (R t) (PC t) (X t).precone) (i : ℕ) (hi : i < n)
    (hh : (X t).hubHt ≠ 0)
    (hz : 0 < relHeight (R t) (PC t) (PS t) (X t) i ∨
      (relHeight (R t) (PC t) (PS t) (X t) i < 0 ∧ ∃ m : ℤ, ∀ s, (X s).shearExp = m)) :
    HasDerivAt (fun s => ((X s).eval n (R s) (PC s) (PS s) i).1)
      (windComponentsDv n (R t) (PC t) (PS t) rd pcd psd (X t) d i).1.2 t ∧
    HasDerivAt (fun s => ((X s).eval n (R s) (PC s) (PS s) i).2)
      (windComponentsDv n (R t) (PC t) (PS t) rd pcd psd (X t) d i).2.2 t := by
  obtain ⟨hx, hy, hz', hcone⟩ := defineCurvatureDv2_correct n hn R PC PS _ rd pcd psd d.precone t h hc i hi
  obtain ⟨v1, v2, v3, v4, -⟩ := defineCurvatureDv2_values n (R t) (PC t) (PS t) rd pcd psd (X t).precone d.precone
  set e := defineCurvatureDv2 n (R t) (PC t) (PS t) rd pcd psd (X t).precone d.precone with he
  set c := fun s => defineCurvature n (R s) (PC s) (PS s) (X s).precone with hcdef
  have hst : HasDerivAt (fun s => Real.sin (X s).tilt) (Real.cos (X t).tilt * d.tilt) t := hX.tilt.sin
  have hct : HasDerivAt (fun s => Real.cos (X s).tilt) (-(Real.sin (X t).tilt * d.tilt)) t :=
    hX.tilt.cos.congr_deriv (by ring)
  have hsa : HasDerivAt (fun s => Real.sin (X s).azimuth) (Real.cos (X t).azimuth * d.azimuth) t := hX.azimuth.sin
  have hca : HasDerivAt (fun s => Real.cos (X s).azimuth) (-(Real.sin (X t).azimuth * d.azimuth)) t :=
    hX.azimuth.cos.congr_deriv (by ring)
  have hsy : HasDerivAt (fun s => Real.sin (X s).yaw) (Real.cos (X t).yaw * d.yaw) t := hX.yaw.sin
  have hcy : HasDerivAt (fun s => Real.cos (X s).yaw) (-(Real.sin (X t).yaw * d.yaw)) t :=
    hX.yaw.cos.congr_deriv (by ring)
  have hsc : HasDerivAt (fun s => Real.sin ((c s).cone i)) (Real.cos ((c t).cone i) * e.coned i) t := hcone.sin
  have hcc : HasDerivAt (fun s => Real.cos ((c s).cone i)) (-(Real.sin ((c t).cone i) * e.coned i)) t :=
    hcone.cos.congr_deriv (by ring)
  have hom : HasDerivAt (fun s => (X s).OmegaRPM * Real.pi / 30) (Real.pi * d.OmegaRPM / 30) t :=
    ((hX.OmegaRPM.mul_const Real.pi).div_const 30).congr_deriv (by ring)
  have hht : HasDerivAt (fun s => ((c s).y_az i * Real.sin (X s).azimuth + (c s).z_az i * Real.cos (X s).azimuth)
        * Real.cos (X s).tilt - (c s).x_az i * Real.sin (X s).tilt)
      (Real.cos (X t).tilt * (Real.sin (X t).azimuth * e.y_azd i + (c t).y_az i * (Real.cos (X t).azimuth * d.azimuth)
          + Real.cos (X t).azimuth * e.z_azd i + (c t).z_az i * -(Real.sin (X t).azimuth * d.azimuth))
        + ((c t).y_az i * Real.sin (X t).azimuth + (c t).z_az i * Real.cos (X t).azimuth)
          * -(Real.sin (X t).tilt * d.tilt)
        - Real.sin (X t).tilt * e.x_azd i - (c t).x_az i * (Real.cos (X t).tilt * d.tilt)) t := by
    refine ((((hy.mul hsa).add (hz'.mul hca)).mul hct).sub (hx.mul hst)).congr_deriv ?_
    simp only [Pi.add_apply, Pi.mul_apply]
    ring
  generalize hH' : (Real.cos (X t).tilt * (Real.sin (X t).azimuth * e.y_azd i
        + (c t).y_az i * (Real.cos (X t).azimuth * d.azimuth)
          + Real.cos (X t).azimuth * e.z_azd i + (c t).z_az i * -(Real.sin (X t).azimuth * d.azimuth))
        + ((c t).y_az i * Real.sin (X t).azimuth + (c t).z_az i * Real.cos (X t).azimuth)
          * -(Real.sin (X t).tilt * d.tilt)
        - Real.sin (X t).tilt * e.x_azd i - (c t).x_az i * (Real.cos (X t).tilt * d.tilt)) = H' at hht
  have hpw : HasDerivAt (fun s => 1 + (((c s).y_az i * Real.sin (X s).azimuth + (c s).z_az i * Real.cos (X s).azimuth)
        * Real.cos (X s).tilt - (c s).x_az i * Real.sin (X s).tilt) / (X s).hubHt)
      ((H' - (((c t).y_az i * Real.sin (X t).azimuth + (c t).z_az i * Real.cos (X t).azimuth)
        * Real.cos (X t).tilt - (c t).x_az i * Real.sin (X t).tilt) * d.hubHt / (X t).hubHt) / (X t).hubHt) t := by
    refine ((hht.div hX.hubHt hh).const_add 1).congr_deriv ?_
    generalize ((c t).y_az i * Real.sin (X t).azimuth + (c t).z_az i * Real.cos (X t).azimuth)
        * Real.cos (X t).tilt - (c t).x_az i * Real.sin (X t).tilt = H
    field_simp
  rw [← relHeight_eq] at hz
  have hpow := powDv_deriv hpw hX.shearExp hz
  have hA : HasDerivAt (fun s => (Real.cos (X s).yaw * Real.sin (X s).tilt * Real.cos (X s).azimuth
        + Real.sin (X s).yaw * Real.sin (X s).azimuth) * Real.sin ((c s).cone i)
        + Real.cos (X s).yaw * Real.cos (X s).tilt * Real.cos ((c s).cone i)) _ t :=
    ((((hcy.mul hst).mul hca).add (hsy.mul hsa)).mul hsc).add ((hcy.mul hct).mul hcc)
  have hB : HasDerivAt (fun s => Real.cos (X s).yaw * Real.sin (X s).tilt * Real.sin (X s).azimuth
        - Real.sin (X s).yaw * Real.cos (X s).azimuth) _ t :=
    ((hcy.mul hst).mul hsa).sub (hsy.mul hca)
  have hrx := ((hom.mul hy).mul hsc).neg
  have hry := hom.mul hz'
  have hV := hX.Uinf.mul hpow
  have h1 := (hV.mul hA).add hrx
  have h2 := (hV.mul hB).add hry
  have hdv := hH'
  constructor
  · refine (h1.congr_deriv ?_).congr_of_eventuallyEq (Eventually.of_forall fun s => ?_)
    · simp only [windComponentsDv, ← he, v1, v2, v3, v4, num_real, Pi.add_apply, Pi.mul_apply, hcdef]
      push_cast
      rw [← hdv]
      ring
    · simp only [WindIn.eval, windComponents, shearedWind, heightFromHub, num_real, Pi.add_apply, Pi.mul_apply,
        Pi.neg_apply, hcdef]
      push_cast
      ring
  · refine (h2.congr_deriv ?_).congr_of_eventuallyEq (Eventually.of_forall fun s => ?_)
    · simp only [windComponentsDv, ← he, v1, v2, v3, v4, num_real, Pi.add_apply, Pi.mul_apply, hcdef]
      push_cast
      rw [← hdv]
      ring
    · simp only [WindIn.eval, windComponents, shearedWind, heightFromHub, num_real, Pi.add_apply, Pi.mul_apply, hcdef]
      push_cast
      ring

/-- A curved blade on a tall tower meets the hypotheses: 4 stations, yawed, blade pointing down,
outermost station. -/
example : ConeRegular 4 (fun i => 1 + 2 * (i : ℝ)) (fun i => (i : ℝ) ^ 2) 0 ∧
    0 < relHeight (fun i => 1 + 2 * (i : ℝ)) (fun i => (i : ℝ) ^ 2) (fun i => (i : ℝ))
      ⟨0, 1 / 10, 0, Real.pi, 10, 12, 90, 1 / 5⟩ 3 := by
  constructor
  · intro i _
    left
    push_cast
    simp
  · norm_num [relHeight]

/-- `s • d + e` -/
def WindIn.comb (s : ℝ) (d e : WindIn ℝ) : WindIn ℝ :=
  ⟨s * d.precone + e.precone, s * d.yaw + e.yaw, s * d.tilt + e.tilt, s * d.azimuth + e.azimuth,
    s * d.Uinf + e.Uinf, s * d.OmegaRPM + e.OmegaRPM, s * d.hubHt + e.hubHt, s * d.shearExp + e.shearExp⟩

/-- **C23** The returned derivatives of the geometry depend linearly on the direction. -/
theorem defineCurvatureDv2_linear (n : ℕ) (r pc ps rd pcd psd rd' pcd' psd' : ℕ → ℝ) (p pd pd' s : ℝ) (i : ℕ) :
    let e := defineCurvatureDv2 n r pc ps (fun i => s * rd i + rd' i) (fun i => s * pcd i + pcd' i)
      (fun i => s * psd i + psd' i) p (s * pd + pd')
    let e1 := defineCurvatureDv2 n r pc ps rd pcd psd p pd
    let e2 := defineCurvatureDv2 n r pc ps rd' pcd' psd' p pd'
    e.x_azd i = s * e1.x_azd i + e2.x_azd i ∧ e.y_azd i = s * e1.y_azd i + e2.y_azd i ∧
    e.z_azd i = s * e1.z_azd i + e2.z_azd i ∧ e.coned i = s * e1.coned i + e2.coned i ∧
    e.sd i = s * e1.sd i + e2.sd i := by
  intro e e1 e2
  have hx : ∀ i, e.x_azd i = s * e1.x_azd i + e2.x_azd i := by
    intro i; simp only [e, e1, e2, defineCurvatureDv2, xAzDv]; ring
  have hz : ∀ i, e.z_azd i = s * e1.z_azd i + e2.z_azd i := by
    intro i; simp only [e, e1, e2, defineCurvatureDv2, zAzDv]; ring
  refine ⟨hx i, ?_, hz i, ?_, ?_⟩
  · simp only [e, e1, e2, defineCurvatureDv2]
  · change coneDv n _ _ e.x_azd e.z_azd i = s * coneDv n _ _ e1.x_azd e1.z_azd i + coneDv n _ _ e2.x_azd e2.z_azd i
    simp only [xAzDv_fst, zAzDv_fst]
    unfold coneDv
    split_ifs <;> (simp only [segAngleDv, hx, hz, div_eq_mul_inv]; ring)
  · change pathLengthDv _ _ _ _ _ _ i = s * pathLengthDv _ _ _ _ _ _ i + pathLengthDv _ _ _ _ _ _ i
    induction i with
    | zero => simp [pathLengthDv]
    | succ i ih =>
      simp only [pathLengthDv, ih]
      have : segLengthDv r pc ps (fun i => s * rd i + rd' i) (fun i => s * pcd i + pcd' i)
          (fun i => s * psd i + psd' i) i = s * segLengthDv r pc ps rd pcd psd i + segLengthDv r pc ps rd' pcd' psd' i := by
        simp only [segLengthDv]
        split_ifs <;> (try simp only [div_eq_mul_inv]) <;> ring
      rw [this]
      ring

/-- **C22** The returned derivatives of the inflow depend linearly on the direction. -/
theorem windComponentsDv_linear (n : ℕ) (r pc ps rd pcd psd rd' pcd' psd' : ℕ → ℝ) (x d d' : WindIn ℝ) (s : ℝ) (i : ℕ) :
    let e := windComponentsDv n r pc ps (fun i => s * rd i + rd' i) (fun i => s * pcd i + pcd' i)
      (fun i => s * psd i + psd' i) x (WindIn.comb s d d') i
    let e1 := windComponentsDv n r pc ps rd pcd psd x d i
    let e2 := windComponentsDv n r pc ps rd' pcd' psd' x d' i
    e.1.2 = s * e1.1.2 + e2.1.2 ∧ e.2.2 = s * e1.2.2 + e2.2.2 := by
  obtain ⟨h1, h2, h3, h4, -⟩ := defineCurvatureDv2_linear n r pc ps rd pcd psd rd' pcd' psd' x.precone d.precone
    d'.precone s i
  obtain ⟨v1, v2, v3, v4, -⟩ := defineCurvatureDv2_values n r pc ps (fun i => s * rd i + rd' i)
    (fun i => s * pcd i + pcd' i) (fun i => s * psd i + psd' i) x.precone (s * d.precone + d'.precone)
  obtain ⟨u1, u2, u3, u4, -⟩ := defineCurvatureDv2_values n r pc ps rd pcd psd x.precone d.precone
  obtain ⟨w1, w2, w3, w4, -⟩ := defineCurvatureDv2_values n r pc ps rd' pcd' psd' x.precone d'.precone
  have hp : ∀ w a b : ℝ, powDv w x.shearExp (s * a + b) (s * d.shearExp + d'.shearExp)
      = s * powDv w x.shearExp a d.shearExp + powDv w x.shearExp b d'.shearExp := by
    intro w a b
    unfold powDv
    split_ifs <;> ring
  have hdiv : ∀ (a b c e H h : ℝ), (s * a + b - H * (s * c + e) / h) / h
      = s * ((a - H * c / h) / h) + (b - H * e / h) / h := by
    intros; simp only [div_eq_mul_inv]; ring
  have hP : ∀ (y z xx sa ca st ct ta dt da et ea yd zd xd yd' zd' xd' : ℝ),
      ct * (sa * (s * yd + yd') + y * (ca * (s * da + ea)) + ca * (s * zd + zd') + z * -(sa * (s * da + ea)))
        + ta * -(st * (s * dt + et)) - st * (s * xd + xd') - xx * (ct * (s * dt + et))
      = s * (ct * (sa * yd + y * (ca * da) + ca * zd + z * -(sa * da)) + ta * -(st * dt) - st * xd - xx * (ct * dt))
        + (ct * (sa * yd' + y * (ca * ea) + ca * zd' + z * -(sa * ea)) + ta * -(st * et) - st * xd' - xx * (ct * et)) := by
    intros; ring
  simp only [windComponentsDv, WindIn.comb, v1, v2, v3, v4, u1, u2, u3, u4, w1, w2, w3, w4, h1, h2, h3, h4, hP, hdiv, hp]
  constructor <;> (try simp only [div_eq_mul_inv]) <;> ring

end Verif
