import Verif.Lemmas.Adjoint

/-!
# Reverse derivatives of the load integration (C24)
-/

namespace Verif

open Finset

/-! ## Specification -/

/-- Inputs of the integration: loads and shape at the `n` stations, precone, hub and tip. -/
structure TTIn where
  Np : ℕ → ℝ
  Tp : ℕ → ℝ
  r : ℕ → ℝ
  precurve : ℕ → ℝ
  presweep : ℕ → ℝ
  precone : ℝ
  Rhub : ℝ
  Rtip : ℝ
  precurveTip : ℝ
  presweepTip : ℝ

/-- The curve `X` of inputs has velocity `d` at `t`. -/
structure TTIn.HasDeriv (n : ℕ) (X : ℝ → TTIn) (d : TTIn) (t : ℝ) : Prop where
  Np : ∀ i < n, HasDerivAt (fun s => (X s).Np i) (d.Np i) t
  Tp : ∀ i < n, HasDerivAt (fun s => (X s).Tp i) (d.Tp i) t
  r : ∀ i < n, HasDerivAt (fun s => (X s).r i) (d.r i) t
  precurve : ∀ i < n, HasDerivAt (fun s => (X s).precurve i) (d.precurve i) t
  presweep : ∀ i < n, HasDerivAt (fun s => (X s).presweep i) (d.presweep i) t
  precone : HasDerivAt (fun s => (X s).precone) d.precone t
  Rhub : HasDerivAt (fun s => (X s).Rhub) d.Rhub t
  Rtip : HasDerivAt (fun s => (X s).Rtip) d.Rtip t
  precurveTip : HasDerivAt (fun s => (X s).precurveTip) d.precurveTip t
  presweepTip : HasDerivAt (fun s => (X s).presweepTip) d.presweepTip t

/-- The integration itself. -/
noncomputable def TTIn.eval (n : ℕ) (x : TTIn) : TTOut ℝ :=
  thrustTorque n x.Np x.Tp x.r x.precurve x.presweep x.precone x.Rhub x.Rtip x.precurveTip x.presweepTip

/-- Weighted sum of the five outputs. -/
def TTSeed.weigh (w : TTSeed ℝ) (y : TTOut ℝ) : ℝ := w.tb * y.T + w.yb * y.Y + w.zb * y.Z + w.qb * y.Q + w.mb * y.M

/-- The gradient returned by the reverse routine, applied to a direction. -/
noncomputable def TTBvOut.apply (n : ℕ) (g : TTBvOut ℝ) (d : TTIn) : ℝ :=
  ∑ i ∈ range n, g.npb i * d.Np i + ∑ i ∈ range n, g.tpb i * d.Tp i + ∑ i ∈ range n, g.rb i * d.r i
    + ∑ i ∈ range n, g.precurveb i * d.precurve i + ∑ i ∈ range n, g.presweepb i * d.presweep i
    + g.preconeb * d.precone + g.rhubb * d.Rhub + g.rtipb * d.Rtip + g.precurvetipb * d.precurveTip
    + g.presweeptipb * d.presweepTip

/-- The blade from hub to tip is regular: consecutive points are different, no segment points exactly inwards. -/
def TTIn.Regular (n : ℕ) (x : TTIn) : Prop :=
  ConeRegular (n + 2) (padded n x.Rhub x.r x.Rtip) (padded n 0 x.precurve x.precurveTip) x.precone ∧
  Distinct (n + 2) (padded n x.Rhub x.r x.Rtip) (padded n 0 x.precurve x.precurveTip)
    (padded n 0 x.presweep x.presweepTip)

/-! ## Helpers -/

theorem padded_deriv {n : ℕ} {a b : ℝ → ℝ} {f : ℝ → ℕ → ℝ} {a' b' : ℝ} {f' : ℕ → ℝ} {t : ℝ}
    (ha : HasDerivAt a a' t) (hf : ∀ i < n, HasDerivAt (fun s => f s i) (f' i) t) (hb : HasDerivAt b b' t)
    (i : ℕ) (hi : i < n + 2) : HasDerivAt (fun s => padded n (a s) (f s) (b s) i) (padded n a' f' b' i) t := by
  unfold padded
  split_ifs
  · exact ha
  · exact hb
  · exact hf (i - 1) (by omega)

theorem sum_padded (n : ℕ) (a b : ℝ) (f g : ℕ → ℝ) :
    ∑ j ∈ range (n + 2), g j * padded n a f b j = g 0 * a + ∑ i ∈ range n, g (i + 1) * f i + g (n + 1) * b := by
  rw [sum_range_succ, sum_range_succ']
  have h0 : padded n a f b 0 = a := by simp [padded]
  have h1 : padded n a f b (n + 1) = b := by simp [padded]
  rw [h0, h1]
  have : ∀ i ∈ range n, g (i + 1) * padded n a f b (i + 1) = g (i + 1) * f i := by
    intro i hi
    have : i ≠ n := by have := mem_range.mp hi; omega
    simp [padded, this]
  rw [sum_congr rfl this]
  ring

theorem trapz_deriv {m : ℕ} {f s : ℝ → ℕ → ℝ} {f' s' : ℕ → ℝ} {t : ℝ}
    (hf : ∀ i < m + 1, HasDerivAt (fun u => f u i) (f' i) t) (hs : ∀ i < m + 1, HasDerivAt (fun u => s u i) (s' i) t) :
    HasDerivAt (fun u => trapz m (f u) (s u))
      (∑ i ∈ range m, (1 / 2 * (s t (i + 1) - s t i) * (f' i + f' (i + 1))
        + 1 / 2 * (f t i + f t (i + 1)) * (s' (i + 1) - s' i))) t := by
  have h : ∀ i ∈ range m, HasDerivAt (fun u => 1 / 2 * (f u i + f u (i + 1)) * (s u (i + 1) - s u i))
      (1 / 2 * (s t (i + 1) - s t i) * (f' i + f' (i + 1)) + 1 / 2 * (f t i + f t (i + 1)) * (s' (i + 1) - s' i)) t := by
    intro i hi
    have hi := mem_range.mp hi
    have h1 := ((hf i (by omega)).add (hf (i + 1) (by omega))).const_mul (1 / 2 : ℝ)
    refine (h1.mul ((hs (i + 1) (by omega)).sub (hs i (by omega)))).congr_deriv ?_
    simp only [Pi.add_apply, Pi.sub_apply]
    ring
  refine (HasDerivAt.fun_sum h).congr_of_eventuallyEq (Filter.Eventually.of_forall fun u => ?_)
  simp only [trapz, num_real]
  push_cast
  rfl

/-- What the loop of the reverse routine accumulates. -/
theorem ttLoop_pair (N : ℕ) (thrust side vert torque flap s : ℕ → ℝ) (w : TTSeed ℝ) (a b c d e f : ℕ → ℝ) :
    ∀ (m : ℕ) (st : TTState ℝ), m < N →
    let l := ttLoop thrust side vert torque flap s w m st
    ∑ j ∈ range N, l.thrustb j * a j + ∑ j ∈ range N, l.sideb j * b j + ∑ j ∈ range N, l.vertb j * c j
      + ∑ j ∈ range N, l.torqueb j * d j + ∑ j ∈ range N, l.flapb j * e j + ∑ j ∈ range N, l.sb j * f j
    = ∑ j ∈ range N, st.thrustb j * a j + ∑ j ∈ range N, st.sideb j * b j + ∑ j ∈ range N, st.vertb j * c j
      + ∑ j ∈ range N, st.torqueb j * d j + ∑ j ∈ range N, st.flapb j * e j + ∑ j ∈ range N, st.sb j * f j
      + w.tb * (∑ i ∈ range m, (1 / 2 * (s (i + 1) - s i) * (a i + a (i + 1))
          + 1 / 2 * (thrust i + thrust (i + 1)) * (f (i + 1) - f i)))
      + w.yb * (∑ i ∈ range m, (1 / 2 * (s (i + 1) - s i) * (b i + b (i + 1))
          + 1 / 2 * (side i + side (i + 1)) * (f (i + 1) - f i)))
      + w.zb * (∑ i ∈ range m, (1 / 2 * (s (i + 1) - s i) * (c i + c (i + 1))
          + 1 / 2 * (vert i + vert (i + 1)) * (f (i + 1) - f i)))
      + w.qb * (∑ i ∈ range m, (1 / 2 * (s (i + 1) - s i) * (d i + d (i + 1))
          + 1 / 2 * (torque i + torque (i + 1)) * (f (i + 1) - f i)))
      + w.mb * (∑ i ∈ range m, (1 / 2 * (s (i + 1) - s i) * (e i + e (i + 1))
          + 1 / 2 * (flap i + flap (i + 1)) * (f (i + 1) - f i)))
  | 0, st, _ => by simp [ttLoop]
  | m + 1, st, hm => by
    have ih := ttLoop_pair N thrust side vert torque flap s w a b c d e f m
      (ttStep thrust side vert torque flap s w m st) (by omega)
    simp only [ttLoop]
    simp only at ih
    rw [ih]
    have h1 : m < N := by omega
    simp only [ttStep]
    simp only [sum_addAt _ _ _ h1, sum_addAt _ _ _ hm, sum_range_succ _ m, num_real]
    push_cast
    ring

/-! ## C24 -/

/-- **C24** For every weighting of thrust, side force, vertical force, torque and flap moment, the reverse routine
returns the gradient of the weighted sum with respect to all its inputs: paired with the velocity of any differentiable
curve of the inputs it gives the derivative along the curve. -/
theorem thrustTorqueBv_correct (n : ℕ) (X : ℝ → TTIn) (d : TTIn) (t : ℝ) (w : TTSeed ℝ)
    (hX : TTIn.HasDeriv n X d t) (hreg : (X t).Regular n) :
    HasDerivAt (fun s => w.weigh ((X s).eval n))
      ((thrustTorqueBv n (X t).Np (X t).Tp (X t).r (X t).precurve (X t).presweep (X t).precone (X t).Rhub (X t).Rtip
        (X t).precurveTip (X t).presweepTip w).apply n d) t := by
  have hz : HasDerivAt (fun _ : ℝ => (0 : ℝ)) 0 t := hasDerivAt_const t 0
  have hr := padded_deriv hX.Rhub hX.r hX.Rtip
  have hc := padded_deriv hz hX.precurve hX.precurveTip
  have hs := padded_deriv hz hX.presweep hX.presweepTip
  have hN := padded_deriv hz hX.Np hz
  have hT := padded_deriv hz hX.Tp hz
  have hB : BladeDeriv (n + 2) (fun s => padded n (X s).Rhub (X s).r (X s).Rtip)
      (fun s => padded n 0 (X s).precurve (X s).precurveTip) (fun s => padded n 0 (X s).presweep (X s).presweepTip)
      (fun s => (X s).precone) (padded n d.Rhub d.r d.Rtip) (padded n 0 d.precurve d.precurveTip)
      (padded n 0 d.presweep d.presweepTip) d.precone t := ⟨hr, hc, hs, hX.precone⟩
  have geo := fun i hi => defineCurvatureDv2_correct (n + 2) (by omega) _ _ _ _ _ _ _ _ t hB hreg.1 i hi
  have path := fun i hi => defineCurvatureDv2_path (n + 2) _ _ _ _ _ _ _ _ t hB hreg.2 i hi
  simp only at geo path
  set e := defineCurvatureDv2 (n + 2) (padded n (X t).Rhub (X t).r (X t).Rtip)
    (padded n 0 (X t).precurve (X t).precurveTip) (padded n 0 (X t).presweep (X t).presweepTip)
    (padded n d.Rhub d.r d.Rtip) (padded n 0 d.precurve d.precurveTip) (padded n 0 d.presweep d.presweepTip)
    (X t).precone d.precone with he
  set c := fun s => defineCurvature (n + 2) (padded n (X s).Rhub (X s).r (X s).Rtip)
    (padded n 0 (X s).precurve (X s).precurveTip) (padded n 0 (X s).presweep (X s).presweepTip) (X s).precone with hcd
  set N' := padded n 0 d.Np 0
  set T' := padded n 0 d.Tp 0
  set N := fun s => padded n 0 (X s).Np 0 with hNd
  set T := fun s => padded n 0 (X s).Tp 0 with hTd
  have dthrust : ∀ i < n + 2, HasDerivAt (fun s => N s i * Real.cos ((c s).cone i))
      (N' i * Real.cos ((c t).cone i) - N t i * Real.sin ((c t).cone i) * e.coned i) t := fun i hi =>
    ((hN i hi).mul (geo i hi).2.2.2.cos).congr_deriv (by ring)
  have dvert : ∀ i < n + 2, HasDerivAt (fun s => N s i * Real.sin ((c s).cone i))
      (N' i * Real.sin ((c t).cone i) + N t i * Real.cos ((c t).cone i) * e.coned i) t := fun i hi =>
    ((hN i hi).mul (geo i hi).2.2.2.sin).congr_deriv (by ring)
  have dtorque : ∀ i < n + 2, HasDerivAt (fun s => T s i * (c s).z_az i)
      (T' i * (c t).z_az i + T t i * e.z_azd i) t := fun i hi => (hT i hi).mul (geo i hi).2.2.1
  have dflap : ∀ i < n + 2, HasDerivAt (fun s => N s i * (c s).z_az i)
      (N' i * (c t).z_az i + N t i * e.z_azd i) t := fun i hi => (hN i hi).mul (geo i hi).2.2.1
  have h1 := trapz_deriv (m := n + 1) (f := fun s i => N s i * Real.cos ((c s).cone i)) (s := fun s => (c s).s)
    dthrust path
  have h2 := trapz_deriv (m := n + 1) (f := T) (s := fun s => (c s).s) hT path
  have h3 := trapz_deriv (m := n + 1) (f := fun s i => N s i * Real.sin ((c s).cone i)) (s := fun s => (c s).s)
    dvert path
  have h4 := trapz_deriv (m := n + 1) (f := fun s i => T s i * (c s).z_az i) (s := fun s => (c s).s) dtorque path
  have h5 := trapz_deriv (m := n + 1) (f := fun s i => N s i * (c s).z_az i) (s := fun s => (c s).s) dflap path
  have hall := ((((h1.const_mul w.tb).add (h2.const_mul w.yb)).add (h3.const_mul w.zb)).add (h4.const_mul w.qb)).add
    (h5.const_mul w.mb)
  refine HasDerivAt.congr_deriv (f' := _) hall ?_
  -- the loop
  have hloop := ttLoop_pair (n + 2) (fun i => N t i * Real.cos ((c t).cone i)) (T t)
    (fun i => N t i * Real.sin ((c t).cone i)) (fun i => T t i * (c t).z_az i) (fun i => N t i * (c t).z_az i) (c t).s w
    (fun i => N' i * Real.cos ((c t).cone i) - N t i * Real.sin ((c t).cone i) * e.coned i) T'
    (fun i => N' i * Real.sin ((c t).cone i) + N t i * Real.cos ((c t).cone i) * e.coned i)
    (fun i => T' i * (c t).z_az i + T t i * e.z_azd i) (fun i => N' i * (c t).z_az i + N t i * e.z_azd i) e.sd
    (n + 1) ⟨fun _ => 0, fun _ => 0, fun _ => 0, fun _ => 0, fun _ => 0, fun _ => 0⟩ (by omega)
  simp only [zero_mul, sum_const_zero, zero_add] at hloop
  rw [← hloop]
  set l := ttLoop (fun i => N t i * Real.cos ((c t).cone i)) (T t)
    (fun i => N t i * Real.sin ((c t).cone i)) (fun i => T t i * (c t).z_az i) (fun i => N t i * (c t).z_az i) (c t).s w
    (n + 1) ⟨fun _ => 0, fun _ => 0, fun _ => 0, fun _ => 0, fun _ => 0, fun _ => 0⟩ with hl
  have hg := defineCurvatureBv_pair n (padded n (X t).Rhub (X t).r (X t).Rtip)
    (padded n 0 (X t).precurve (X t).precurveTip) (padded n 0 (X t).presweep (X t).presweepTip)
    (padded n d.Rhub d.r d.Rtip) (padded n 0 d.precurve d.precurveTip) (padded n 0 d.presweep d.presweepTip)
    (X t).precone d.precone (fun i => N t i * l.flapb i + T t i * l.torqueb i)
    (fun i => Real.cos ((c t).cone i) * N t i * l.vertb i - Real.sin ((c t).cone i) * N t i * l.thrustb i) l.sb
  simp only [← he] at hg
  set g := defineCurvatureBv (n + 2) (padded n (X t).Rhub (X t).r (X t).Rtip)
    (padded n 0 (X t).precurve (X t).precurveTip) (padded n 0 (X t).presweep (X t).presweepTip)
    (X t).precone (fun i => N t i * l.flapb i + T t i * l.torqueb i)
    (fun i => Real.cos ((c t).cone i) * N t i * l.vertb i - Real.sin ((c t).cone i) * N t i * l.thrustb i) l.sb
  have happ : (thrustTorqueBv n (X t).Np (X t).Tp (X t).r (X t).precurve (X t).presweep (X t).precone (X t).Rhub
      (X t).Rtip (X t).precurveTip (X t).presweepTip w).apply n d
      = ∑ i ∈ range (n + 2), ((c t).z_az i * l.flapb i + Real.sin ((c t).cone i) * l.vertb i
          + Real.cos ((c t).cone i) * l.thrustb i) * N' i
        + ∑ i ∈ range (n + 2), ((c t).z_az i * l.torqueb i + l.sideb i) * T' i
        + (∑ j ∈ range (n + 2), g.rb j * padded n d.Rhub d.r d.Rtip j
          + ∑ j ∈ range (n + 2), g.precurveb j * padded n 0 d.precurve d.precurveTip j
          + ∑ j ∈ range (n + 2), g.presweepb j * padded n 0 d.presweep d.presweepTip j + g.preconeb * d.precone) := by
    simp only [N', T', sum_padded, mul_zero, zero_add, add_zero]
    change _ + _ + _ + _ + _ + g.preconeb * _ + g.rb 0 * _ + g.rb (n + 1) * _ + g.precurveb (n + 1) * _
      + g.presweepb (n + 1) * _ = _
    change (∑ i ∈ range n, ((c t).z_az (i + 1) * l.flapb (i + 1) + Real.sin ((c t).cone (i + 1)) * l.vertb (i + 1)
          + Real.cos ((c t).cone (i + 1)) * l.thrustb (i + 1)) * d.Np i)
        + (∑ i ∈ range n, ((c t).z_az (i + 1) * l.torqueb (i + 1) + l.sideb (i + 1)) * d.Tp i)
        + (∑ i ∈ range n, g.rb (i + 1) * d.r i) + (∑ i ∈ range n, g.precurveb (i + 1) * d.precurve i)
        + (∑ i ∈ range n, g.presweepb (i + 1) * d.presweep i) + g.preconeb * _ + g.rb 0 * _ + g.rb (n + 1) * _
        + g.precurveb (n + 1) * _ + g.presweepb (n + 1) * _ = _
    ring
  rw [happ, hg]
  simp only [← sum_add_distrib]
  refine sum_congr rfl fun j _ => ?_
  ring

/-- A case meeting the hypotheses: a straight blade of three stations with precone. -/
example : TTIn.Regular 3 ⟨fun _ => 1, fun _ => 1, fun i => 2 + (i : ℝ), fun _ => 0, fun _ => 0, 1 / 10, 1, 5, 0, 0⟩ := by
  have hp : 0 < Real.cos (1 / 10 : ℝ) := by
    apply Real.cos_pos_of_mem_Ioo
    constructor <;> linarith [Real.pi_gt_three]
  have hinc : ∀ i, i + 1 < 3 + 2 → padded 3 (1 : ℝ) (fun i => 2 + (i : ℝ)) 5 (i + 1)
      - padded 3 (1 : ℝ) (fun i => 2 + (i : ℝ)) 5 i = 1 := by
    intro i hi
    have : i = 0 ∨ i = 1 ∨ i = 2 ∨ i = 3 := by omega
    rcases this with rfl | rfl | rfl | rfl <;> norm_num [padded]
  have hzero : ∀ i, padded 3 (0 : ℝ) (fun _ => (0 : ℝ)) 0 i = 0 := by
    intro i; simp [padded]
  refine ⟨fun i hi => Or.inl ?_, fun i hi => ?_⟩
  · simp only [hinc i hi, hzero, sub_zero, zero_mul, add_zero, one_mul]
    exact hp
  · simp only [hinc i hi]
    norm_num [hzero]

end Verif
