import Verif.Props.GeometryDeriv
import Verif.Model.CCBlade

/-!
# The columns of the inflow derivatives determine the derivative in every direction
-/

namespace Verif

theorem windComponentsDv_congr {n : ℕ} (hn : 2 ≤ n) {r pc ps rd pcd psd rd' pcd' psd' : ℕ → ℝ} {x d : WindIn ℝ} {i : ℕ}
    (hi : i < n) (hr : ∀ j < n, rd j = rd' j) (hpc : ∀ j < n, pcd j = pcd' j) (hps : psd i = psd' i) :
    windComponentsDv n r pc ps rd pcd psd x d i = windComponentsDv n r pc ps rd' pcd' psd' x d i := by
  have hx : ∀ j < n, xAzDv r pc rd pcd x.precone d.precone j = xAzDv r pc rd' pcd' x.precone d.precone j := by
    intro j hj; simp only [xAzDv, hr j hj, hpc j hj]
  have hz : ∀ j < n, zAzDv r pc rd pcd x.precone d.precone j = zAzDv r pc rd' pcd' x.precone d.precone j := by
    intro j hj; simp only [zAzDv, hr j hj, hpc j hj]
  have hx1 : ∀ j, (xAzDv r pc rd pcd x.precone d.precone j).1 = (xAzDv r pc rd' pcd' x.precone d.precone j).1 := by
    intro j; simp only [xAzDv]
  have hz1 : ∀ j, (zAzDv r pc rd pcd x.precone d.precone j).1 = (zAzDv r pc rd' pcd' x.precone d.precone j).1 := by
    intro j; simp only [zAzDv]
  have hcone : (defineCurvatureDv2 n r pc ps rd pcd psd x.precone d.precone).coned i
      = (defineCurvatureDv2 n r pc ps rd' pcd' psd' x.precone d.precone).coned i := by
    simp only [defineCurvatureDv2, coneDv, segAngleDv]
    split_ifs with h0 h1
    · simp only [hx 0 (by omega), hx (0 + 1) (by omega), hz 0 (by omega), hz (0 + 1) (by omega)]
    · simp only [hx (n - 2) (by omega), hx (n - 2 + 1) (by omega), hz (n - 2) (by omega), hz (n - 2 + 1) (by omega)]
    · simp only [hx i hi, hx (i - 1) (by omega), hx (i + 1) (by omega), hz i hi, hz (i - 1) (by omega),
        hz (i + 1) (by omega)]
  simp only [windComponentsDv, hcone]
  simp only [defineCurvatureDv2, hx1, hz1, hx i hi, hz i hi, hps]

/-- A direction of all arguments of the inflow routine. -/
structure WDir where
  r : ℕ → ℝ
  pc : ℕ → ℝ
  ps : ℕ → ℝ
  w : WindIn ℝ

def WDir.comb (s : ℝ) (d e : WDir) : WDir :=
  ⟨fun i => s * d.r i + e.r i, fun i => s * d.pc i + e.pc i, fun i => s * d.ps i + e.ps i, WindIn.comb s d.w e.w⟩

def WDir.zero : WDir := ⟨fun _ => 0, fun _ => 0, fun _ => 0, ⟨0, 0, 0, 0, 0, 0, 0, 0⟩⟩

def WDir.lin (c : ℕ → ℝ) (D : ℕ → WDir) : ℕ → WDir
  | 0 => .zero
  | n + 1 => WDir.comb (c n) (D n) (WDir.lin c D n)

/-- The derivative of both components in direction `d`. -/
noncomputable def WDir.app (n : ℕ) (r pc ps : ℕ → ℝ) (x : WindIn ℝ) (i : ℕ) (d : WDir) : ℝ × ℝ :=
  ((windComponentsDv n r pc ps d.r d.pc d.ps x d.w i).1.2, (windComponentsDv n r pc ps d.r d.pc d.ps x d.w i).2.2)

section
variable {n : ℕ} {r pc ps : ℕ → ℝ} {x : WindIn ℝ} {i : ℕ}

theorem WDir.app_comb (s : ℝ) (d e : WDir) :
    (WDir.comb s d e).app n r pc ps x i
      = (s * (d.app n r pc ps x i).1 + (e.app n r pc ps x i).1, s * (d.app n r pc ps x i).2 + (e.app n r pc ps x i).2) := by
  obtain ⟨h1, h2⟩ := windComponentsDv_linear n r pc ps d.r d.pc d.ps e.r e.pc e.ps x d.w e.w s i
  exact Prod.ext h1 h2

theorem WDir.app_zero : WDir.zero.app n r pc ps x i = (0, 0) := by
  have e : WDir.zero = WDir.comb (-1) .zero .zero := by simp [WDir.zero, WDir.comb, WindIn.comb]
  have h := WDir.app_comb (n := n) (r := r) (pc := pc) (ps := ps) (x := x) (i := i) (-1) .zero .zero
  rw [← e] at h
  have h1 := congrArg Prod.fst h
  have h2 := congrArg Prod.snd h
  simp only at h1 h2
  exact Prod.ext (by simp only; linarith) (by simp only; linarith)

theorem WDir.app_lin (c : ℕ → ℝ) (D : ℕ → WDir) : ∀ m,
    (WDir.lin c D m).app n r pc ps x i = (∑ k ∈ Finset.range m, c k * ((D k).app n r pc ps x i).1,
      ∑ k ∈ Finset.range m, c k * ((D k).app n r pc ps x i).2)
  | 0 => by simpa [WDir.lin] using WDir.app_zero
  | m + 1 => by
    rw [WDir.lin, WDir.app_comb, WDir.app_lin c D m, Finset.sum_range_succ, Finset.sum_range_succ, add_comm, add_comm (c m * _)]

end

theorem kron_sum (c : ℕ → ℝ) (m j : ℕ) (hj : j < m) : ∑ k ∈ Finset.range m, c k * kron k j = c j := by
  rw [Finset.sum_eq_single j]
  · simp [kron]
  · intro b _ hb; simp [kron, hb]
  · intro h; exact absurd (Finset.mem_range.mpr hj) h

theorem WDir.lin_r (c : ℕ → ℝ) (D : ℕ → WDir) (j : ℕ) : ∀ m, (WDir.lin c D m).r j = ∑ k ∈ Finset.range m, c k * (D k).r j
  | 0 => by simp [WDir.lin, WDir.zero]
  | m + 1 => by rw [Finset.sum_range_succ, ← WDir.lin_r c D j m]; exact add_comm _ _
theorem WDir.lin_pc (c : ℕ → ℝ) (D : ℕ → WDir) (j : ℕ) :
    ∀ m, (WDir.lin c D m).pc j = ∑ k ∈ Finset.range m, c k * (D k).pc j
  | 0 => by simp [WDir.lin, WDir.zero]
  | m + 1 => by rw [Finset.sum_range_succ, ← WDir.lin_pc c D j m]; exact add_comm _ _
theorem WDir.lin_ps (c : ℕ → ℝ) (D : ℕ → WDir) (j : ℕ) :
    ∀ m, (WDir.lin c D m).ps j = ∑ k ∈ Finset.range m, c k * (D k).ps j
  | 0 => by simp [WDir.lin, WDir.zero]
  | m + 1 => by rw [Finset.sum_range_succ, ← WDir.lin_ps c D j m]; exact add_comm _ _

theorem WDir.lin_w (c : ℕ → ℝ) (D : ℕ → WDir) : ∀ m, (WDir.lin c D m).w
    = ⟨∑ k ∈ Finset.range m, c k * (D k).w.precone, ∑ k ∈ Finset.range m, c k * (D k).w.yaw,
      ∑ k ∈ Finset.range m, c k * (D k).w.tilt, ∑ k ∈ Finset.range m, c k * (D k).w.azimuth,
      ∑ k ∈ Finset.range m, c k * (D k).w.Uinf, ∑ k ∈ Finset.range m, c k * (D k).w.OmegaRPM,
      ∑ k ∈ Finset.range m, c k * (D k).w.hubHt, ∑ k ∈ Finset.range m, c k * (D k).w.shearExp⟩
  | 0 => by simp [WDir.lin, WDir.zero]
  | m + 1 => by
    simp only [Finset.sum_range_succ, WDir.lin, WDir.comb, WDir.lin_w c D m, WindIn.comb]
    congr 1 <;> ring

/-- The unit directions the code uses (ccblade.py ll. 834-861). -/
noncomputable def unitDir (n k : ℕ) : WDir :=
  ⟨fun j => kron k j, fun j => kron k (n + j), fun j => kron k (2 * n + j),
    ⟨kron k (3 * n), kron k (3 * n + 3), kron k (3 * n + 1), kron k (3 * n + 5), kron k (3 * n + 6),
      kron k (3 * n + 7), kron k (3 * n + 2), kron k (3 * n + 4)⟩⟩

theorem rotorWindDv_eq (R : Rotor ℝ) (Uinf Omega azimuth : ℝ) (k i : ℕ) :
    rotorWindDv R Uinf Omega azimuth k i = (unitDir R.n k).app R.n R.r R.precurve R.presweep
      ⟨R.precone, R.yaw, R.tilt, azimuth, Uinf, Omega, R.hubHt, R.shearExp⟩ i := rfl

/-- The weights of the unit directions. -/
noncomputable def WDir.coef (n : ℕ) (d : WDir) (k : ℕ) : ℝ :=
  if k < n then d.r k else if k < 2 * n then d.pc (k - n) else if k < 3 * n then d.ps (k - 2 * n)
  else match k - 3 * n with
    | 0 => d.w.precone
    | 1 => d.w.tilt
    | 2 => d.w.hubHt
    | 3 => d.w.yaw
    | 4 => d.w.shearExp
    | 5 => d.w.azimuth
    | 6 => d.w.Uinf
    | _ => d.w.OmegaRPM

section
variable {n : ℕ} {d : WDir}

theorem WDir.coef_r {j : ℕ} (h : j < n) : d.coef n j = d.r j := by simp [WDir.coef, h]
theorem WDir.coef_pc {j : ℕ} (h : j < n) : d.coef n (n + j) = d.pc j := by
  have h1 : ¬ n + j < n := by omega
  have h2 : n + j < 2 * n := by omega
  simp [WDir.coef, h2]
theorem WDir.coef_ps {j : ℕ} (h : j < n) : d.coef n (2 * n + j) = d.ps j := by
  have h1 : ¬ 2 * n + j < n := by omega
  have h2 : ¬ 2 * n + j < 2 * n := by omega
  have h3 : 2 * n + j < 3 * n := by omega
  simp [WDir.coef, h1, h3]
theorem WDir.coef_w (j : ℕ) : d.coef n (3 * n + j) = match j with
    | 0 => d.w.precone
    | 1 => d.w.tilt
    | 2 => d.w.hubHt
    | 3 => d.w.yaw
    | 4 => d.w.shearExp
    | 5 => d.w.azimuth
    | 6 => d.w.Uinf
    | _ => d.w.OmegaRPM := by
  have h1 : ¬ 3 * n + j < n := by omega
  have h2 : ¬ 3 * n + j < 2 * n := by omega
  have h3 : ¬ 3 * n + j < 3 * n := by omega
  simp only [WDir.coef, h1, h2, h3, if_false, Nat.add_sub_cancel_left]

end

/-- The derivative in any direction from the derivatives in the unit directions. -/
theorem WDir.app_units {n : ℕ} (hn : 2 ≤ n) (r pc ps : ℕ → ℝ) (x : WindIn ℝ) (i : ℕ) (hi : i < n) (d : WDir) :
    d.app n r pc ps x i
      = (∑ k ∈ Finset.range (3 * n + 8), d.coef n k * ((unitDir n k).app n r pc ps x i).1,
         ∑ k ∈ Finset.range (3 * n + 8), d.coef n k * ((unitDir n k).app n r pc ps x i).2) := by
  rw [← WDir.app_lin]
  have hw : (WDir.lin (d.coef n) (unitDir n) (3 * n + 8)).w = d.w := by
    rw [WDir.lin_w]
    simp only [unitDir]
    have h0 := WDir.coef_w (n := n) (d := d) 0
    rw [Nat.add_zero] at h0
    rw [kron_sum _ _ _ (by omega), kron_sum _ _ _ (by omega), kron_sum _ _ _ (by omega), kron_sum _ _ _ (by omega),
      kron_sum _ _ _ (by omega), kron_sum _ _ _ (by omega), kron_sum _ _ _ (by omega), kron_sum _ _ _ (by omega), h0,
      WDir.coef_w, WDir.coef_w, WDir.coef_w, WDir.coef_w, WDir.coef_w, WDir.coef_w, WDir.coef_w]
    rfl
  simp only [WDir.app, hw]
  rw [windComponentsDv_congr (rd := (WDir.lin (d.coef n) (unitDir n) (3 * n + 8)).r)
    (pcd := (WDir.lin (d.coef n) (unitDir n) (3 * n + 8)).pc) (psd := (WDir.lin (d.coef n) (unitDir n) (3 * n + 8)).ps)
    (rd' := d.r) (pcd' := d.pc) (psd' := d.ps) hn hi]
  · intro j hj
    rw [WDir.lin_r]
    simp only [unitDir]
    rw [kron_sum _ _ _ (by omega), WDir.coef_r hj]
  · intro j hj
    rw [WDir.lin_pc]
    simp only [unitDir]
    rw [kron_sum _ _ _ (by omega), WDir.coef_pc hj]
  · rw [WDir.lin_ps]
    simp only [unitDir]
    rw [kron_sum _ _ _ (by omega), WDir.coef_ps hi]

/-- A change of the presweep of another station does not change the inflow. -/
theorem unitDir_presweep {n : ℕ} (hn : 2 ≤ n) (r pc ps : ℕ → ℝ) (x : WindIn ℝ) (i j : ℕ) (hi : i < n) (hj : j < n)
    (hij : j ≠ i) : (unitDir n (2 * n + j)).app n r pc ps x i = (0, 0) := by
  rw [← WDir.app_zero (n := n) (r := r) (pc := pc) (ps := ps) (x := x) (i := i)]
  have hw : (unitDir n (2 * n + j)).w = WDir.zero.w := by
    simp only [unitDir, kron, WDir.zero]
    rw [if_neg (by omega), if_neg (by omega), if_neg (by omega), if_neg (by omega), if_neg (by omega), if_neg (by omega),
      if_neg (by omega), if_neg (by omega)]
  simp only [WDir.app, hw]
  rw [windComponentsDv_congr (rd' := WDir.zero.r) (pcd' := WDir.zero.pc) (psd' := WDir.zero.ps) hn hi]
  · intro k hk
    simp only [unitDir, kron, WDir.zero]
    rw [if_neg (by omega)]
  · intro k hk
    simp only [unitDir, kron, WDir.zero]
    rw [if_neg (by omega)]
  · simp only [unitDir, kron, WDir.zero]
    rw [if_neg (by omega)]

/-- On a straight blade a change of the radius of another station does not change the inflow. -/
theorem unitDir_radius {n : ℕ} (hn : 2 ≤ n) (r pc ps : ℕ → ℝ) (x : WindIn ℝ) (i j : ℕ) (hi : i < n) (hj : j < n)
    (hij : j ≠ i) (hpc : ∀ k < n, pc k = pc 0) : (unitDir n j).app n r pc ps x i = (0, 0) := by
  have hw : (unitDir n j).w = WDir.zero.w := by
    simp only [unitDir, kron, WDir.zero]
    rw [if_neg (by omega), if_neg (by omega), if_neg (by omega), if_neg (by omega), if_neg (by omega), if_neg (by omega),
      if_neg (by omega), if_neg (by omega)]
  simp only [WDir.app, hw]
  rw [windComponentsDv_congr (rd := (unitDir n j).r) (pcd := (unitDir n j).pc) (psd := (unitDir n j).ps)
    (rd' := fun k => kron j k) (pcd' := WDir.zero.pc) (psd' := WDir.zero.ps) hn hi
    (fun k _ => rfl) (fun k hk => by simp only [unitDir, kron, WDir.zero]; rw [if_neg (by omega)])
    (by simp only [unitDir, kron, WDir.zero]; rw [if_neg (by omega)])]
  have hki : (kron j i : ℝ) = 0 := by simp [kron, hij]
  have seg : ∀ k, k + 1 < n → segAngleDv (fun k => (xAzDv r pc (fun k => kron j k) (fun _ => 0) x.precone 0 k).1)
      (fun k => (zAzDv r pc (fun k => kron j k) (fun _ => 0) x.precone 0 k).1)
      (fun k => (xAzDv r pc (fun k => kron j k) (fun _ => 0) x.precone 0 k).2)
      (fun k => (zAzDv r pc (fun k => kron j k) (fun _ => 0) x.precone 0 k).2) k = 0 := by
    intro k hk
    simp only [segAngleDv, xAzDv, zAzDv, hpc k (by omega), hpc (k + 1) hk, num_real]
    simp only [div_eq_mul_inv]
    ring
  have hcone : (defineCurvatureDv2 n r pc ps (fun k => kron j k) WDir.zero.pc WDir.zero.ps x.precone 0).coned i = 0 := by
    simp only [defineCurvatureDv2, WDir.zero, coneDv]
    split_ifs with h0 h1
    · exact seg 0 (by omega)
    · exact seg (n - 2) (by omega)
    · have e1 := seg (i - 1) (by omega)
      have e2 := seg i (by omega)
      have hi1 : i - 1 + 1 = i := by omega
      simp only [segAngleDv, hi1] at e1 e2
      rw [mul_eq_zero]
      right
      linear_combination e1 + e2
  simp only [windComponentsDv, WDir.zero] at hcone ⊢
  rw [hcone]
  simp only [defineCurvatureDv2, xAzDv, zAzDv, hki, powDv, num_real]
  simp

end Verif
