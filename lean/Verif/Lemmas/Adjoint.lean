import Verif.Model.BemDv
import Verif.Model.BemBv
import Verif.Props.GeometryDeriv

/-! # Adjoint identities of the reverse-mode kernels -/

namespace Verif

open Finset

theorem sum_addAt {N i : ℕ} (f x : ℕ → ℝ) (v : ℝ) (hi : i < N) :
    ∑ j ∈ range N, addAt f i v j * x j = ∑ j ∈ range N, f j * x j + v * x i := by
  have : ∀ j, addAt f i v j * x j = f j * x j + (if j = i then v * x i else 0) := by
    intro j
    unfold addAt
    split_ifs with h
    · rw [h]; ring
    · ring
  simp only [this, sum_add_distrib]
  rw [sum_ite_eq' (range N) i, if_pos (mem_range.mpr hi)]

theorem sum_setAt {N i : ℕ} (f x : ℕ → ℝ) (v : ℝ) (hi : i < N) :
    ∑ j ∈ range N, setAt f i v j * x j = ∑ j ∈ range N, f j * x j + (v - f i) * x i := by
  have : ∀ j, setAt f i v j * x j = f j * x j + (if j = i then (v - f i) * x i else 0) := by
    intro j
    unfold setAt
    split_ifs with h
    · rw [h]; ring
    · ring
  simp only [this, sum_add_distrib]
  rw [sum_ite_eq' (range N) i, if_pos (mem_range.mpr hi)]

theorem sum_head (m : ℕ) (f t x : ℕ → ℝ) :
    ∑ j ∈ range (m + 2), (if j < m then f j + t j else f j) * x j
      = ∑ j ∈ range (m + 2), f j * x j + ∑ j ∈ range m, t j * x j := by
  have : ∀ j, (if j < m then f j + t j else f j) * x j = f j * x j + (if j < m then t j * x j else 0) := by
    intro j; split_ifs <;> ring
  simp only [this, sum_add_distrib]
  congr 1
  rw [sum_range_succ, sum_range_succ]
  simp only [lt_irrefl, if_false, add_zero, show ¬ m + 1 < m by omega]
  exact sum_congr rfl fun j hj => if_pos (mem_range.mp hj)

theorem sum_mid (m : ℕ) (f t x : ℕ → ℝ) :
    ∑ j ∈ range (m + 2), (if 1 ≤ j ∧ j < m + 1 then f j + t (j - 1) else f j) * x j
      = ∑ j ∈ range (m + 2), f j * x j + ∑ j ∈ range m, t j * x (j + 1) := by
  have : ∀ j, (if 1 ≤ j ∧ j < m + 1 then f j + t (j - 1) else f j) * x j
      = f j * x j + (if 1 ≤ j ∧ j < m + 1 then t (j - 1) * x j else 0) := by
    intro j; split_ifs <;> ring
  simp only [this, sum_add_distrib]
  congr 1
  rw [sum_range_succ, sum_range_succ']
  simp only [show ¬ (1 ≤ m + 1 ∧ m + 1 < m + 1) by omega, show ¬ (1 ≤ 0 ∧ 0 < m + 1) by omega, if_false, add_zero]
  refine sum_congr rfl fun j hj => ?_
  rw [if_pos ⟨by omega, by have := mem_range.mp hj; omega⟩, Nat.add_sub_cancel]

theorem sum_tail (m : ℕ) (f t x : ℕ → ℝ) :
    ∑ j ∈ range (m + 2), (if 2 ≤ j ∧ j < m + 2 then f j + t (j - 2) else f j) * x j
      = ∑ j ∈ range (m + 2), f j * x j + ∑ j ∈ range m, t j * x (j + 2) := by
  have : ∀ j, (if 2 ≤ j ∧ j < m + 2 then f j + t (j - 2) else f j) * x j
      = f j * x j + (if 2 ≤ j ∧ j < m + 2 then t (j - 2) * x j else 0) := by
    intro j; split_ifs <;> ring
  simp only [this, sum_add_distrib]
  congr 1
  rw [sum_range_succ', sum_range_succ']
  simp only [show ¬ (2 ≤ 0 + 1 ∧ 0 + 1 < m + 2) by omega, show ¬ (2 ≤ 0 ∧ 0 < m + 2) by omega, if_false, add_zero]
  refine sum_congr rfl fun j hj => ?_
  rw [if_pos ⟨by omega, by have := mem_range.mp hj; omega⟩]
  rfl

/-- Pairing of the geometry adjoints with a direction. -/
def LenState.pair (N : ℕ) (st : LenState ℝ) (rd pcd psd : ℕ → ℝ) : ℝ :=
  ∑ j ∈ range N, st.rb j * rd j + ∑ j ∈ range N, st.precurveb j * pcd j + ∑ j ∈ range N, st.presweepb j * psd j

theorem lenLoop_pair (N : ℕ) (r pc ps rd pcd psd : ℕ → ℝ) : ∀ (m : ℕ) (st : LenState ℝ), m < N →
    (lenLoop r pc ps m st).pair N rd pcd psd
      = st.pair N rd pcd psd + ∑ j ∈ range (m + 1), st.sb j * pathLengthDv r pc ps rd pcd psd j
  | 0, st, _ => by simp [lenLoop, pathLengthDv]
  | m + 1, st, hm => by
    rw [lenLoop, lenLoop_pair N r pc ps rd pcd psd m _ (by omega)]
    have h1 : m < N := by omega
    have hsb : ∑ j ∈ range (m + 1), (lenStep r pc ps m st).sb j * pathLengthDv r pc ps rd pcd psd j
        = ∑ j ∈ range (m + 1), st.sb j * pathLengthDv r pc ps rd pcd psd j
          + st.sb (m + 1) * pathLengthDv r pc ps rd pcd psd m := by
      rw [← sum_addAt st.sb _ _ (Nat.lt_succ_self m)]
      refine sum_congr rfl fun j hj => ?_
      have : j ≠ m + 1 := by have := mem_range.mp hj; omega
      simp only [lenStep, setAt, this, if_false]
    rw [hsb, sum_range_succ _ (m + 1), pathLengthDv]
    have hp : (lenStep r pc ps m st).pair N rd pcd psd = st.pair N rd pcd psd
        + st.sb (m + 1) * segLengthDv r pc ps rd pcd psd m := by
      simp only [LenState.pair, lenStep]
      rw [sum_addAt _ _ _ h1, sum_addAt _ _ _ hm, sum_addAt _ _ _ h1, sum_addAt _ _ _ hm, sum_addAt _ _ _ h1,
        sum_addAt _ _ _ hm]
      simp only [segLengthDv]
      split_ifs
      · ring
      · simp only [div_eq_mul_inv]; ring
    rw [hp]
    ring

theorem segAdj_pair (x z xd zd : ℕ → ℝ) (w : ℝ) (i : ℕ) :
    segAdjX x z w i * (xd i - xd (i + 1)) + segAdjZ x z w i * (zd (i + 1) - zd i)
      = w * segAngleDv x z xd zd i := by
  simp only [segAdjX, segAdjZ, segAngleDv, num_real]
  have : (-(x (i + 1) - x i)) ^ 2 = (x i - x (i + 1)) ^ 2 := by ring
  rw [this]
  simp only [div_eq_mul_inv]
  ring

theorem sum_coneDv (m : ℕ) (x z xd zd coneb : ℕ → ℝ) :
    ∑ j ∈ range (m + 2), coneb j * coneDv (m + 2) x z xd zd j
      = coneb 0 * segAngleDv x z xd zd 0
        + ∑ j ∈ range m, 1 / 2 * coneb (j + 1) * (segAngleDv x z xd zd j + segAngleDv x z xd zd (j + 1))
        + coneb (m + 1) * segAngleDv x z xd zd m := by
  rw [sum_range_succ, sum_range_succ']
  have h0 : coneDv (m + 2) x z xd zd 0 = segAngleDv x z xd zd 0 := by simp [coneDv]
  have hm : coneDv (m + 2) x z xd zd (m + 1) = segAngleDv x z xd zd m := by simp [coneDv]
  have hj : ∀ j ∈ range m, coneb (j + 1) * coneDv (m + 2) x z xd zd (j + 1)
      = 1 / 2 * coneb (j + 1) * (segAngleDv x z xd zd j + segAngleDv x z xd zd (j + 1)) := by
    intro j hj
    have h1 : ¬ j + 1 = m + 2 - 1 := by have := mem_range.mp hj; omega
    simp only [coneDv, Nat.succ_ne_zero, if_false, h1, segAngleDv, num_real, Nat.add_sub_cancel]
    push_cast
    ring
  rw [sum_congr rfl hj, h0, hm]
  ring

theorem coneAdj_pair (m : ℕ) (x z z_azb coneb xd zd : ℕ → ℝ) :
    ∑ j ∈ range (m + 2), (coneAdj (m + 2) x z z_azb coneb).1 j * xd j
      + ∑ j ∈ range (m + 2), (coneAdj (m + 2) x z z_azb coneb).2 j * zd j
    = ∑ j ∈ range (m + 2), z_azb j * zd j + ∑ j ∈ range (m + 2), coneb j * coneDv (m + 2) x z xd zd j := by
  have e1 : m + 2 - 1 = m + 1 := rfl
  have e2 : m + 2 - 2 = m := rfl
  have hx : ∑ j ∈ range (m + 2), (coneAdj (m + 2) x z z_azb coneb).1 j * xd j
      = segAdjX x z (coneb 0) 0 * (xd 0 - xd 1) + segAdjX x z (coneb (m + 1)) m * (xd m - xd (m + 1))
        + ∑ j ∈ range m, segAdjX x z (1 / 2 * coneb (j + 1)) j * (xd j - xd (j + 1))
        + ∑ j ∈ range m, segAdjX x z (1 / 2 * coneb (j + 1)) (j + 1) * (xd (j + 1) - xd (j + 2)) := by
    simp only [coneAdj, e1, e2]
    rw [sum_addAt _ _ _ (by omega), sum_addAt _ _ _ (by omega)]
    simp only [sub_eq_add_neg]
    rw [sum_tail m _ (fun j => -segAdjX x z (1 / Num.nat 2 * coneb (j + 1)) (j + 1))]
    have := sum_mid m (fun j => if j < m then
        addAt (addAt (fun _ => (0 : ℝ)) m (segAdjX x z (coneb (m + 1)) m)) (m + 1) (-segAdjX x z (coneb (m + 1)) m) j
          + segAdjX x z (1 / Num.nat 2 * coneb (j + 1)) j
        else addAt (addAt (fun _ => (0 : ℝ)) m (segAdjX x z (coneb (m + 1)) m)) (m + 1)
          (-segAdjX x z (coneb (m + 1)) m) j)
      (fun j => segAdjX x z (1 / Num.nat 2 * coneb (j + 1)) (j + 1)
        + -segAdjX x z (1 / Num.nat 2 * coneb (j + 1)) j) xd
    simp only [← add_assoc] at this
    rw [this, sum_head, sum_addAt _ _ _ (by omega), sum_addAt _ _ _ (by omega)]
    simp only [zero_mul, sum_const_zero, num_real]
    push_cast
    simp only [mul_add, add_mul, neg_mul, mul_neg, sum_add_distrib, sum_neg_distrib]
    ring
  have hz : ∑ j ∈ range (m + 2), (coneAdj (m + 2) x z z_azb coneb).2 j * zd j
      = ∑ j ∈ range (m + 2), z_azb j * zd j
        + segAdjZ x z (coneb 0) 0 * (zd 1 - zd 0) + segAdjZ x z (coneb (m + 1)) m * (zd (m + 1) - zd m)
        + ∑ j ∈ range m, segAdjZ x z (1 / 2 * coneb (j + 1)) j * (zd (j + 1) - zd j)
        + ∑ j ∈ range m, segAdjZ x z (1 / 2 * coneb (j + 1)) (j + 1) * (zd (j + 2) - zd (j + 1)) := by
    simp only [coneAdj, e1, e2]
    rw [sum_addAt _ _ _ (by omega), sum_addAt _ _ _ (by omega)]
    simp only [sub_eq_add_neg]
    rw [sum_tail m _ (fun j => segAdjZ x z (1 / Num.nat 2 * coneb (j + 1)) (j + 1)),
      sum_head m _ (fun j => -segAdjZ x z (1 / Num.nat 2 * coneb (j + 1)) j)]
    have := sum_mid m (addAt (addAt z_azb (m + 1) (segAdjZ x z (coneb (m + 1)) m)) m
        (-segAdjZ x z (coneb (m + 1)) m))
      (fun j => segAdjZ x z (1 / Num.nat 2 * coneb (j + 1)) j
        + -segAdjZ x z (1 / Num.nat 2 * coneb (j + 1)) (j + 1)) zd
    simp only [← add_assoc] at this
    rw [this, sum_addAt _ _ _ (by omega), sum_addAt _ _ _ (by omega)]
    simp only [num_real]
    push_cast
    simp only [mul_add, add_mul, neg_mul, mul_neg, sum_add_distrib, sum_neg_distrib]
    ring
  rw [hx, hz, sum_coneDv, ← segAdj_pair, ← segAdj_pair]
  have hs : ∑ j ∈ range m, 1 / 2 * coneb (j + 1) * (segAngleDv x z xd zd j + segAngleDv x z xd zd (j + 1))
      = ∑ j ∈ range m, segAdjX x z (1 / 2 * coneb (j + 1)) j * (xd j - xd (j + 1))
        + ∑ j ∈ range m, segAdjX x z (1 / 2 * coneb (j + 1)) (j + 1) * (xd (j + 1) - xd (j + 2))
        + (∑ j ∈ range m, segAdjZ x z (1 / 2 * coneb (j + 1)) j * (zd (j + 1) - zd j)
        + ∑ j ∈ range m, segAdjZ x z (1 / 2 * coneb (j + 1)) (j + 1) * (zd (j + 2) - zd (j + 1))) := by
    rw [← sum_add_distrib, ← sum_add_distrib, ← sum_add_distrib]
    refine sum_congr rfl fun j _ => ?_
    rw [mul_add, ← segAdj_pair, ← segAdj_pair]
    ring
  rw [hs]
  ring

/-- The reverse routine of the geometry is the transpose of the forward routine. -/
theorem defineCurvatureBv_pair (m : ℕ) (r pc ps rd pcd psd : ℕ → ℝ) (p pd : ℝ) (z_azb coneb sb : ℕ → ℝ) :
    let g := defineCurvatureBv (m + 2) r pc ps p z_azb coneb sb
    let e := defineCurvatureDv2 (m + 2) r pc ps rd pcd psd p pd
    ∑ j ∈ range (m + 2), g.rb j * rd j + ∑ j ∈ range (m + 2), g.precurveb j * pcd j
      + ∑ j ∈ range (m + 2), g.presweepb j * psd j + g.preconeb * pd
    = ∑ j ∈ range (m + 2), z_azb j * e.z_azd j + ∑ j ∈ range (m + 2), coneb j * e.coned j
      + ∑ j ∈ range (m + 2), sb j * e.sd j := by
  intro g e
  have hl := lenLoop_pair (m + 2) r pc ps rd pcd psd (m + 1) ⟨sb, fun _ => 0, fun _ => 0, fun _ => 0⟩ (by omega)
  have hx : (fun i => -(r i * Num.sin p) + pc i * Num.cos p) = xAz r pc p := by
    funext i; simp only [xAz]; ring
  have hz : (fun i => r i * Num.cos p + pc i * Num.sin p) = zAz r pc p := rfl
  have hc := coneAdj_pair m (xAz r pc p) (zAz r pc p) z_azb coneb e.x_azd e.z_azd
  have hcone : e.coned = coneDv (m + 2) (xAz r pc p) (zAz r pc p) e.x_azd e.z_azd := by
    simp only [e, defineCurvatureDv2, xAzDv_fst, zAzDv_fst]
  rw [← hcone] at hc
  have hsd : e.sd = pathLengthDv r pc ps rd pcd psd := rfl
  rw [← hsd] at hl
  rw [← hc]
  simp only [LenState.pair, zero_mul, sum_const_zero, zero_add] at hl
  rw [← hl]
  simp only [g, defineCurvatureBv]
  rw [hx, hz]
  simp only [show m + 2 - 1 = m + 1 from rfl, real_sumTo, real_sin, real_cos]
  set b := coneAdj (m + 2) (xAz r pc p) (zAz r pc p) z_azb coneb
  have hex : ∀ j, e.x_azd j = Real.cos p * pcd j - (pc j * Real.sin p + r j * Real.cos p) * pd - Real.sin p * rd j :=
    fun j => rfl
  have hez : ∀ j, e.z_azd j = Real.cos p * rd j - (r j * Real.sin p - pc j * Real.cos p) * pd + Real.sin p * pcd j :=
    fun j => rfl
  simp only [hex, hez]
  simp only [add_mul, sub_mul, sum_add_distrib, sum_sub_distrib, mul_add, mul_sub, mul_sum, sum_mul]
  have c1 : ∀ f g : ℕ → ℝ, (∀ j, f j = g j) → ∑ j ∈ range (m + 2), f j = ∑ j ∈ range (m + 2), g j :=
    fun f g h => sum_congr rfl fun j _ => h j
  rw [c1 (fun j => b.1 j * (Real.cos p * pcd j)) (fun j => Real.cos p * b.1 j * pcd j) (fun j => by ring),
    c1 (fun j => b.1 j * (pc j * Real.sin p * pd)) (fun j => Real.sin p * (pc j * b.1 j) * pd) (fun j => by ring),
    c1 (fun j => b.1 j * (r j * Real.cos p * pd)) (fun j => Real.cos p * (r j * b.1 j) * pd) (fun j => by ring),
    c1 (fun j => b.1 j * (Real.sin p * rd j)) (fun j => Real.sin p * b.1 j * rd j) (fun j => by ring),
    c1 (fun j => b.2 j * (Real.cos p * rd j)) (fun j => Real.cos p * b.2 j * rd j) (fun j => by ring),
    c1 (fun j => b.2 j * (r j * Real.sin p * pd)) (fun j => Real.sin p * (r j * b.2 j) * pd) (fun j => by ring),
    c1 (fun j => b.2 j * (pc j * Real.cos p * pd)) (fun j => Real.cos p * (pc j * b.2 j) * pd) (fun j => by ring),
    c1 (fun j => b.2 j * (Real.sin p * pcd j)) (fun j => Real.sin p * b.2 j * pcd j) (fun j => by ring)]
  ring

end Verif
