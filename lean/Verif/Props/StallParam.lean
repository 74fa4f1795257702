import Verif.Model.AeroDyn
import Verif.Props.Unsteady
import Verif.Props.Polars

/-!
# `Polar.unsteadyparam` (C85)
-/

namespace Verif

/-- The points of the normal-force curve (angle in radians) with an angle between `lo` and `hi` degrees. -/
noncomputable def normalForcePoints (lo hi : ℝ) : List ℝ → List ℝ → List ℝ → List (ℝ × ℝ)
  | a :: as, l :: ls, d :: ds =>
    let x := a * (Real.pi / 180)
    if lo ≤ a ∧ a ≤ hi then (x, l * Real.cos x + d * Real.sin x) :: normalForcePoints lo hi as ls ds
    else normalForcePoints lo hi as ls ds
  | _, _, _ => []

theorem normalForcePoints_eq (lo hi : ℝ) (as ls ds : List ℝ) :
    (((as.map deg2rad).zip (cnOf (as.map deg2rad) ls ds)).filter (fun q => deg2rad lo ≤ q.1 ∧ q.1 ≤ deg2rad hi)) =
      normalForcePoints lo hi as ls ds := by
  have hpi : 0 < Real.pi / 180 := by positivity
  induction as generalizing ls ds with
  | nil => simp [normalForcePoints]
  | cons a as ih =>
    cases ls with
    | nil => simp [normalForcePoints, cnOf]
    | cons l ls =>
      cases ds with
      | nil => simp [normalForcePoints, cnOf]
      | cons d ds =>
        have h := ih ls ds
        simp only [cnOf, List.map_cons, List.zip_cons_cons, List.zipWith_cons_cons, List.filter_cons, normalForcePoints,
          num_real] at h ⊢
        rw [h]
        simp only [mul_le_mul_iff_left₀ hpi, decide_eq_true_eq]

theorem npUnique_length (l : List ℝ) : (npUnique l).length = l.toFinset.card := by
  have hs : (npUnique l).Pairwise (· < ·) := dedupAdj_strict _ (sort_le _)
  have hn : (npUnique l).Nodup := hs.imp fun h => ne_of_lt h
  rw [← List.toFinset_card_of_nodup hn]
  congr 1
  ext x
  rw [List.mem_toFinset, List.mem_toFinset, npUnique, mem_dedupAdj, List.mem_insertionSort]

theorem npInterps_inv {xs xp fp ys : List ℝ} (h : npInterps xs xp fp = .ok ys) : ys = xs.map (interpVal xp fp) := by
  rw [npInterps] at h
  unfold interpVal
  split at h
  · split at h
    · simp at h
    · rename_i p rest hz
      rw [hz]
      exact (Except.ok.inj h).symm
  · simp at h

theorem arr_map {β γ : Type} (n : ℕ) (X : ℕ → β) (f : β → γ) : (arr n X).map f = arr n fun i => f (X i) := by
  simp [arr]

theorem arr_zipWith {β γ δ : Type} (n : ℕ) (X : ℕ → β) (Y : ℕ → γ) (f : β → γ → δ) :
    List.zipWith f (arr n X) (arr n Y) = arr n fun i => f (X i) (Y i) := by
  refine List.ext_getElem? fun i => ?_
  rcases Nat.lt_or_ge i n with h | h
  · rw [List.getElem?_zipWith, arr_getElem? n i _ h, arr_getElem? n i _ h, arr_getElem? n i _ h]
  · rw [List.getElem?_eq_none (by simpa [arr] using h), List.getElem?_eq_none (by simpa [arr] using h)]

theorem arr_zip {β γ : Type} (n : ℕ) (X : ℕ → β) (Y : ℕ → γ) : (arr n X).zip (arr n Y) = arr n fun i => (X i, Y i) :=
  arr_zipWith n X Y Prod.mk

/-- Where sampled deviations reach the threshold, as a (fractional) sample number: the last sample if the last deviation is below
the threshold, otherwise the first if the first deviation is above, otherwise a point between two samples where the deviation, taken
linear between them, passes the threshold from below (or the last sample). -/
def ReachedAt (n : ℕ) (dev : ℕ → ℝ) (thr s : ℝ) : Prop :=
  (dev (n - 1) < thr ∧ s = (n - 1 : ℕ)) ∨ (thr ≤ dev (n - 1) ∧ thr < dev 0 ∧ s = 0) ∨
  (dev 0 ≤ thr ∧ thr ≤ dev (n - 1) ∧ ∃ (k : ℕ) (t : ℝ), dev k ≤ thr ∧ (k + 1 < n ∧ thr < dev (k + 1) ∨ (k + 1 = n ∧ t = 0)) ∧ 0 ≤ t ∧ t ≤ 1 ∧
    dev k + t * (dev (k + 1) - dev k) = thr ∧ s = k + t)

theorem npInterp_reached (n : ℕ) (hn : 0 < n) (dev Y : ℕ → ℝ) (c d : ℝ) (hY : ∀ i : ℕ, Y i = c + i * d) (thr v : ℝ)
    (h : npInterp thr (arr n fun i => (dev i, Y i)) = .ok v) : ∃ s, ReachedAt n dev thr s ∧ v = c + s * d := by
  rcases lt_or_ge (dev (n - 1)) thr with h1 | h1
  · rw [npInterp_high n hn dev Y thr h1, hY] at h
    exact ⟨_, .inl ⟨h1, rfl⟩, (Except.ok.inj h).symm⟩
  rcases lt_or_ge thr (dev 0) with h0 | h0
  · rw [npInterp_low n hn dev Y thr h0 h1, hY] at h
    exact ⟨_, .inr (.inl ⟨h1, h0, rfl⟩), by rw [← Except.ok.inj h]; simp⟩
  obtain ⟨k, t, a1, a2, a3, a4, a5, a6⟩ := npInterp_arr n hn dev thr h0 h1
  rw [a6 Y, hY, hY] at h
  refine ⟨k + t, .inr (.inr ⟨h0, h1, k, t, a4, a1, a2, a3, a5, rfl⟩), ?_⟩
  rw [← Except.ok.inj h]
  push_cast
  ring

theorem ReachedAt.bounds {n : ℕ} (hn : 0 < n) {dev : ℕ → ℝ} {thr s : ℝ} (h : ReachedAt n dev thr s) : 0 ≤ s ∧ s ≤ (n - 1 : ℕ) := by
  rcases h with ⟨-, rfl⟩ | ⟨-, -, rfl⟩ | ⟨-, -, k, t, -, hk, h0, h1, -, rfl⟩
  · exact ⟨by positivity, le_rfl⟩
  · exact ⟨le_rfl, by positivity⟩
  · refine ⟨by positivity, ?_⟩
    rcases hk with ⟨hk, -⟩ | ⟨hk, rfl⟩
    · have : ((k + 1 : ℕ) : ℝ) ≤ (n - 1 : ℕ) := by exact_mod_cast (by omega : k + 1 ≤ n - 1)
      push_cast at this ⊢
      linarith
    · rw [← hk]; simp

/-- With a single change of side the point is the one where the deviation first reaches the threshold. -/
theorem ReachedAt.unique {n : ℕ} {dev : ℕ → ℝ} {thr s : ℝ} (h : ReachedAt n dev thr s) (k : ℕ) (t : ℝ) (hk : k + 1 < n)
    (hle : ∀ i ≤ k, dev i ≤ thr) (hgt : ∀ i, k < i → i < n → thr < dev i) (ht : dev k + t * (dev (k + 1) - dev k) = thr) :
    s = k + t := by
  have hl := hgt (n - 1) (by omega) (by omega)
  have hk1 := hgt (k + 1) (by omega) hk
  have hk0 := hle k le_rfl
  rcases h with ⟨h, -⟩ | ⟨-, h, -⟩ | ⟨-, -, j, t', h1, h2, -, -, h3, rfl⟩
  · linarith
  · linarith [hle 0 (by omega)]
  · obtain rfl : j = k := by
      rcases h2 with ⟨h2, h2'⟩ | ⟨h2, -⟩
      · rcases lt_trichotomy j k with h | h | h
        · linarith [hle (j + 1) (by omega)]
        · exact h
        · linarith [hgt j h (by omega)]
      · linarith [hgt j (by omega) (by omega)]
    rw [mul_right_cancel₀ (show dev (j + 1) - dev j ≠ 0 by linarith) (show t' * _ = t * _ by linarith)]

/-- The normal-force curve of a table: angle in radians, normal force coefficient. -/
noncomputable def normalForceCurve : List ℝ → List ℝ → List ℝ → List (ℝ × ℝ)
  | a :: as, l :: ls, d :: ds =>
    (a * (Real.pi / 180), l * Real.cos (a * (Real.pi / 180)) + d * Real.sin (a * (Real.pi / 180))) :: normalForceCurve as ls ds
  | _, _, _ => []

theorem normalForceCurve_eq (as ls ds : List ℝ) :
    (as.map deg2rad).zip (cnOf (as.map deg2rad) ls ds) = normalForceCurve as ls ds := by
  induction as generalizing ls ds with
  | nil => simp [normalForceCurve]
  | cons a as ih =>
    cases ls with
    | nil => simp [normalForceCurve, cnOf]
    | cons l ls =>
      cases ds with
      | nil => simp [normalForceCurve, cnOf]
      | cons d ds =>
        have h := ih ls ds
        simp only [cnOf, List.map_cons, List.zip_cons_cons, List.zipWith_cons_cons, normalForceCurve, num_real] at h ⊢
        rw [h]

/-- The drag `d` is the least of the table and stands in row `k`, the first such row. -/
def FirstMin (l : List ℝ) (k : ℕ) (d : ℝ) : Prop :=
  l[k]? = some d ∧ (∀ (j : ℕ) (x : ℝ), l[j]? = some x → d ≤ x) ∧ ∀ (j : ℕ) (x : ℝ), j < k → l[j]? = some x → d < x

theorem npArgmin_spec (l : List ℝ) (hne : l ≠ []) : ∃ k d, npArgmin l = .ok k ∧ FirstMin l k d := by
  obtain ⟨k, b, h1, h2, h3, h4⟩ := npArgmax_spec (l.map fun a => -a) (by simpa using hne)
  rw [List.getElem?_map, Option.map_eq_some_iff] at h2
  obtain ⟨d, hd, rfl⟩ := h2
  refine ⟨k, d, by rw [npArgmin_eq, h1], hd, ?_, ?_⟩
  · intro j x hx
    have := h3 j (-x) (by rw [List.getElem?_map, hx]; rfl)
    linarith
  · intro j x hj hx
    have := h4 j (-x) hj (by rw [List.getElem?_map, hx]; rfl)
    linarith

/-- **C85** A table with fewer than ten rows or fewer than ten different lift values (a cylinder) gets eight zeros. -/
theorem unsteadyparam_cylinder (fit : PolyFit ℝ) (p : Polar ℝ) (lo hi : ℝ)
    (h : p.alpha.length < 10 ∨ p.cl.toFinset.card < 10) : p.unsteadyparam fit lo hi = .ok ⟨0, 0, 0, 0, 0, 0, 0, 0⟩ := by
  rw [Polar.unsteadyparam]
  simp only [List.length_map, npUnique_length]
  rw [if_pos h]
  rfl

/-- The deviations of the table from the line `m x + b` at whole degrees, upwards from 0 and downwards from 5. -/
noncomputable def devUpper (p : Polar ℝ) (m b : ℝ) (i : ℕ) : ℝ := m * (i * (Real.pi / 180) - -b / m) -
  interpVal (p.alpha.map deg2rad) (cnOf (p.alpha.map deg2rad) p.cl p.cd) (i * (Real.pi / 180))

noncomputable def devLower (p : Polar ℝ) (m b : ℝ) (i : ℕ) : ℝ :=
  interpVal (p.alpha.map deg2rad) (cnOf (p.alpha.map deg2rad) p.cl p.cd) ((5 - i) * (Real.pi / 180)) -
    m * ((5 - i) * (Real.pi / 180) - -b / m)

theorem unsteadyparam_inv {fit : PolyFit ℝ} {p : Polar ℝ} {lo hi : ℝ} {u : UnsteadyParam ℝ}
    (hr : 10 ≤ p.alpha.length) (hl : 10 ≤ p.cl.toFinset.card) (h : p.unsteadyparam fit lo hi = .ok u) :
    ∃ m b sU sL i x d, fit (normalForcePoints lo hi p.alpha p.cl p.cd) = .ok (m, b) ∧
      npInterp (1 / 20) (arr 40 fun i => (devUpper p m b i, i * (Real.pi / 180))) = .ok (sU * (Real.pi / 180)) ∧
      ReachedAt 40 (devUpper p m b) (1 / 20) sU ∧
      ReachedAt 45 (devLower p m b) (1 / 20) sL ∧
      npArgmin p.cd = .ok i ∧ p.alpha[i]? = some x ∧ p.cd[i]? = some d ∧
      u = ⟨0, sU, -b / m * (180 / Real.pi), m, m * (sU * (Real.pi / 180) - -b / m), m * ((5 - sL) * (Real.pi / 180) - -b / m),
        x * (Real.pi / 180), d⟩ := by
  have hpi := Real.pi_pos
  rw [Polar.unsteadyparam] at h
  simp only [List.length_map, npUnique_length] at h
  rw [if_neg (by omega)] at h
  obtain ⟨⟨m, b⟩, hfit, h⟩ := bind_inv h
  rw [normalForcePoints_eq] at hfit
  obtain ⟨cU, hcU, h⟩ := bind_inv h
  obtain ⟨cL, hcL, h⟩ := bind_inv h
  obtain ⟨aU, hU, h⟩ := bind_inv h
  obtain ⟨aL, hL, h⟩ := bind_inv h
  obtain ⟨i, hi', h⟩ := bind_inv h
  obtain ⟨x, hx, h⟩ := bind_inv h
  obtain ⟨d, hd, h⟩ := bind_inv h
  have hx' := pyGet_inv hx
  rw [List.getElem?_map, Option.map_eq_some_iff] at hx'
  obtain ⟨a, ha, rfl⟩ := hx'
  rw [npInterps_inv hcU, arr_map, arr_map, arr_zipWith, arr_zip] at hU
  rw [npInterps_inv hcL, arr_map, arr_map, arr_zipWith, arr_zip] at hL
  have e : (Num.nat 5 / Num.nat 100 : ℝ) = 1 / 20 := by simp only [num_real]; norm_num
  rw [e] at hU hL
  have hU' : npInterp (1 / 20) (arr 40 fun i => (devUpper p m b i, i * (Real.pi / 180))) = .ok aU := by
    rw [← hU]; simp only [real_deg2rad, num_real, devUpper]
  obtain ⟨sU, hsU, rfl⟩ := npInterp_reached 40 (by norm_num) (devUpper p m b) (fun i => i * (Real.pi / 180)) 0 (Real.pi / 180)
    (fun i => by ring) (1 / 20) aU hU'
  obtain ⟨sL, hsL, rfl⟩ := npInterp_reached 45 (by norm_num) (devLower p m b) (fun i => (5 - i) * (Real.pi / 180)) (5 * (Real.pi / 180))
    (-(Real.pi / 180)) (fun i => by ring) (1 / 20) aL (by
      rw [← hL]
      simp only [real_deg2rad, num_real, devLower, Nat.cast_ofNat])
  refine ⟨m, b, sU, sL, i, a, d, hfit, by rw [hU', zero_add], hsU, hsL, hi', ha, pyGet_inv hd, ?_⟩
  simp only [pure, Except.pure, Except.ok.injEq] at h
  rw [← h]
  have e2 : sU * (Real.pi / 180) * (180 / Real.pi) = sU := by field_simp
  have e3 : 5 * (Real.pi / 180) + sL * -(Real.pi / 180) = (5 - sL) * (Real.pi / 180) := by ring
  simp only [num_real, rad2deg, real_deg2rad, zero_add]
  push_cast
  rw [e2, e3]

/-- **C85** (partial) For any other table that gets parameters at all: slope and zero of the normal force are those of the line fitted
to the points between the given angles, the normal forces at stall lie on that line, the stall angle is between 0 and 39 degrees, and
the last parameter is the least drag.  Missing: the angle of least drag is reported in radians, all other angles in degrees
(`unsteadyparam_degrees_false`), and the parameters do not always exist (`unsteadyparam_exists_false`). -/
theorem unsteadyparam_partial (fit : PolyFit ℝ) (p : Polar ℝ) (lo hi : ℝ) (u : UnsteadyParam ℝ)
    (hr : 10 ≤ p.alpha.length) (hl : 10 ≤ p.cl.toFinset.card) (h : p.unsteadyparam fit lo hi = .ok u) :
    ∃ m b aL, fit (normalForcePoints lo hi p.alpha p.cl p.cd) = .ok (m, b) ∧ u.control = 0 ∧ u.cnSlope = m ∧
      (m ≠ 0 → m * (u.alphaZeroCn * (Real.pi / 180)) + b = 0 ∧
        u.cnStallUpper = m * (u.stallAngle * (Real.pi / 180)) + b ∧ u.cnStallLower = m * aL + b) ∧
      (0 ≤ u.stallAngle ∧ u.stallAngle ≤ 39) ∧ (-39 * (Real.pi / 180) ≤ aL ∧ aL ≤ 5 * (Real.pi / 180)) ∧
      ∃ i x, FirstMin p.cd i u.minCd ∧ p.alpha[i]? = some x ∧ u.alphaMinCd = x * (Real.pi / 180) := by
  obtain ⟨m, b, sU, sL, i, x, d, hfit, -, hU, hL, hi', hx, hd, rfl⟩ := unsteadyparam_inv hr hl h
  have hU := hU.bounds (by norm_num)
  have hL := hL.bounds (by norm_num)
  norm_num at hU hL
  have hpi := Real.pi_pos
  have hne : p.cd ≠ [] := by
    rintro hn
    rw [hn] at hd
    simp at hd
  obtain ⟨k, d', hk, hmin⟩ := npArgmin_spec p.cd hne
  rw [hi', Except.ok.injEq] at hk
  subst hk
  have hdd : d = d' := by
    have := hmin.1
    rw [hd] at this
    exact Option.some.inj this
  subst hdd
  refine ⟨m, b, (5 - sL) * (Real.pi / 180), hfit, rfl, rfl, ?_, hU, ⟨by gcongr; linarith, by gcongr; linarith⟩, i, x, hmin, hx, rfl⟩
  · intro hm
    refine ⟨?_, ?_, ?_⟩
    · field_simp
      ring
    · field_simp
      ring
    · field_simp
      ring

/-- **C85** For any other table the parameters exist as soon as the line can be fitted. -/
theorem unsteadyparam_exists (fit : PolyFit ℝ) (p : Polar ℝ) (lo hi m b : ℝ) (hwf : p.WF) (hr : 10 ≤ p.alpha.length)
    (hc : 10 ≤ p.cl.toFinset.card) (hf : fit (normalForcePoints lo hi p.alpha p.cl p.cd) = .ok (m, b)) :
    ∃ u, p.unsteadyparam fit lo hi = .ok u := by
  have hcl : p.cl.length = p.alpha.length := hwf.len .cl
  have hcd : p.cd.length = p.alpha.length := hwf.len .cd
  have hcn : p.cd ≠ [] := by rintro e; rw [e] at hcd; simp at hcd; omega
  rw [Polar.unsteadyparam]
  simp only [List.length_map, npUnique_length]
  rw [if_neg (by omega), normalForcePoints_eq, hf]
  have hlen : (cnOf (p.alpha.map deg2rad) p.cl p.cd).length =
      (p.alpha.map deg2rad).length := by simp [cnOf, hcl, hcd]
  have hi1 : ∀ xs : List ℝ, ∃ ys, npInterps xs (p.alpha.map deg2rad)
      (cnOf (p.alpha.map deg2rad) p.cl p.cd) = .ok ys ∧ ys.length = xs.length := by
    intro xs
    rw [npInterps_ok _ _ _ hlen (by simpa using hwf.ne)]
    exact ⟨_, rfl, by simp⟩
  obtain ⟨c1, e1, l1⟩ := hi1 (arr 40 fun i => deg2rad (Num.nat i))
  obtain ⟨c2, e2, l2⟩ := hi1 (arr 45 fun i => deg2rad (Num.nat 5 - Num.nat i))
  have hi2 : ∀ (n : ℕ) (f : ℕ → ℝ) (xp : List ℝ), xp.length = n + 1 →
      ∃ y, npInterp (Num.nat 5 / Num.nat 100 : ℝ) (xp.zip (arr (n + 1) f)) = .ok y := by
    intro n f xp hxp
    refine npInterp_ok_of_ne _ _ fun e => ?_
    have := congrArg List.length e
    rw [List.length_zip, hxp, arr_length] at this
    simp at this
  obtain ⟨aU, e3⟩ := hi2 39 (fun i => deg2rad (Num.nat i)) (List.zipWith (fun x y => x - y)
    ((arr 40 fun i => deg2rad (Num.nat i)).map fun a => m * (a - -b / m)) c1) (by rw [List.length_zipWith, l1]; simp [arr])
  obtain ⟨aL, e4⟩ := hi2 44 (fun i => deg2rad (Num.nat 5 - Num.nat i)) (List.zipWith (fun x y => x - y) c2
    ((arr 45 fun i => deg2rad (Num.nat 5 - Num.nat i)).map fun a => m * (a - -b / m))) (by rw [List.length_zipWith, l2]; simp [arr])
  obtain ⟨k, d, hk, hm⟩ := npArgmin_spec p.cd hcn
  have hkl : k < p.alpha.length := by
    have := hm.1
    rw [List.getElem?_eq_some_iff] at this
    obtain ⟨h, -⟩ := this
    omega
  obtain ⟨a, ha⟩ : ∃ a, (p.alpha.map (deg2rad : ℝ → ℝ))[k]? = some a :=
    ⟨_, List.getElem?_eq_getElem (by simpa using hkl)⟩
  simp only [bind, Except.bind, pure, Except.pure, e1, e2, e3, e4, hk, pyGet_ok ha, pyGet_ok hm.1]
  exact ⟨_, rfl⟩

/-- A table of twelve angles, lift increasing, least drag at four degrees -/
noncomputable def stallPolar : Polar ℝ :=
  ⟨1000000, [-7, -6, -5, -4, -3, -2, -1, 0, 1, 2, 3, 4], [-7, -6, -5, -4, -3, -2, -1, 0, 1, 2, 3, 4],
    [2, 2, 2, 2, 2, 2, 2, 2, 2, 2, 2, 1], [0, 0, 0, 0, 0, 0, 0, 0, 0, 0, 0, 0]⟩

theorem stallPolar_card : stallPolar.cl.toFinset.card = 12 := by
  rw [List.toFinset_card_of_nodup]
  · rfl
  · have : stallPolar.cl.Pairwise (· < ·) := by norm_num [stallPolar, List.pairwise_cons]
    exact this.imp fun h => ne_of_lt h

theorem stallPolar_ok (fit : PolyFit ℝ) (m b : ℝ)
    (hf : fit (normalForcePoints (-5) 5 stallPolar.alpha stallPolar.cl stallPolar.cd) = .ok (m, b)) :
    ∃ u, stallPolar.unsteadyparam fit (-5) 5 = .ok u ∧ u.alphaMinCd = 4 * (Real.pi / 180) := by
  have hwf : stallPolar.WF := ⟨by simp [stallPolar], by norm_num [stallPolar, List.pairwise_cons], fun c => by
    cases c <;> simp [stallPolar, Polar.col]⟩
  have hex := unsteadyparam_exists fit stallPolar (-5) 5 m b hwf (by simp [stallPolar]) (by rw [stallPolar_card]; omega) hf
  obtain ⟨u, hu⟩ := hex
  refine ⟨u, hu, ?_⟩
  obtain ⟨-, -, -, -, -, -, -, -, -, i, x, hmin, hx, he⟩ :=
    unsteadyparam_partial fit stallPolar (-5) 5 u (by simp [stallPolar]) (by rw [stallPolar_card]; omega) hu
  have h1 : u.minCd ≤ 1 := hmin.2.1 11 1 (by simp [stallPolar])
  have hi : i = 11 := by
    have hc := hmin.1
    have hlt : i < 12 := by
      rw [List.getElem?_eq_some_iff] at hc
      obtain ⟨h, -⟩ := hc
      simpa [stallPolar] using h
    by_contra hne
    have : i < 11 := by omega
    have h2 : stallPolar.cd[i]? = some 2 := by
      interval_cases i <;> simp [stallPolar]
    rw [h2, Option.some.injEq] at hc
    linarith
  rw [hi] at hx
  have : x = 4 := by
    have e : stallPolar.alpha[11]? = some 4 := by simp [stallPolar]
    rw [e] at hx
    exact (Option.some.inj hx).symm
  rw [he, this]

/-- **C85** The angle of least drag is not reported in degrees: whatever line is fitted, a table whose drag is least at 4 degrees gets
the parameter 0.07 (radians). -/
theorem unsteadyparam_degrees_false (fit : PolyFit ℝ) (hf : ∀ l, l ≠ [] → ∃ m b, fit l = .ok (m, b)) :
    ∃ u, stallPolar.unsteadyparam fit (-5) 5 = .ok u ∧ FirstMin stallPolar.cd 11 u.minCd ∧ stallPolar.alpha[11]? = some 4 ∧
      u.alphaMinCd ≠ 4 := by
  obtain ⟨m, b, hmb⟩ := hf (normalForcePoints (-5) 5 stallPolar.alpha stallPolar.cl stallPolar.cd) (by
    simp only [stallPolar, normalForcePoints]
    norm_num
    exact List.cons_ne_nil _ _)
  obtain ⟨u, hu, he⟩ := stallPolar_ok fit m b hmb
  obtain ⟨-, -, -, -, -, -, -, -, -, i, x, hmin, hx, he'⟩ :=
    unsteadyparam_partial fit stallPolar (-5) 5 u (by simp [stallPolar]) (by rw [stallPolar_card]; omega) hu
  have hpi := Real.pi_pos
  have hpi4 := Real.pi_le_four
  have hx4 : x = 4 := by
    rw [he] at he'
    have : (4 : ℝ) = x := mul_right_cancel₀ (by positivity : Real.pi / 180 ≠ 0) he'
    exact this.symm
  have h4 : stallPolar.alpha[11]? = some 4 := by simp [stallPolar]
  have hi : i = 11 := by
    have hlt : i < 12 := by
      have hc := hmin.1
      rw [List.getElem?_eq_some_iff] at hc
      obtain ⟨h, -⟩ := hc
      simpa [stallPolar] using h
    rw [hx4] at hx
    by_contra hne
    have : i < 11 := by omega
    interval_cases i <;> norm_num [stallPolar] at hx
  subst hi
  refine ⟨u, hu, hmin, h4, ?_⟩
  rw [he]
  intro h
  have : 4 * (Real.pi / 180) < 4 := by linarith
  linarith

/-- Ten rows, all of them outside ±5 degrees -/
noncomputable def sparsePolar : Polar ℝ :=
  ⟨1000000, [-90, -60, -30, -20, -10, 10, 20, 30, 60, 90], [-9, -6, -3, -2, -1, 1, 2, 3, 6, 9],
    [1, 1, 1, 1, 1, 1, 1, 1, 1, 1], [0, 0, 0, 0, 0, 0, 0, 0, 0, 0]⟩

/-- **C85** Parameters do not exist for every table: the check for unsuitable data counts all rows instead of those in the linear
region, so that a table without rows between -5 and 5 degrees is passed to `np.polyfit`, which raises for an empty vector. -/
theorem unsteadyparam_exists_false (fit : PolyFit ℝ) (hf : fit [] = .error .typeError) :
    sparsePolar.WF ∧ sparsePolar.unsteadyparam fit (-5) 5 = .error .typeError := by
  refine ⟨⟨by simp [sparsePolar], by norm_num [sparsePolar, List.pairwise_cons], fun c => by cases c <;> simp [sparsePolar, Polar.col]⟩, ?_⟩
  have hc : sparsePolar.cl.toFinset.card = 10 := by
    rw [List.toFinset_card_of_nodup]
    · rfl
    · have : sparsePolar.cl.Pairwise (· < ·) := by norm_num [sparsePolar, List.pairwise_cons]
      exact this.imp fun h => ne_of_lt h
  have hp : normalForcePoints (-5) 5 sparsePolar.alpha sparsePolar.cl sparsePolar.cd = [] := by
    simp only [sparsePolar, normalForcePoints]
    norm_num
  rw [Polar.unsteadyparam]
  simp only [List.length_map, npUnique_length]
  rw [if_neg (by rw [hc]; simp [sparsePolar]), normalForcePoints_eq, hp, hf]
  rfl

/-- The hypotheses are met by a fit that succeeds on points and fails without. -/
example : ∃ fit : PolyFit ℝ, fit [] = .error .typeError ∧ ∀ l, l ≠ [] → ∃ m b, fit l = .ok (m, b) :=
  ⟨fun l => match l with | [] => .error .typeError | _ :: _ => .ok (1, 0), rfl, fun l hl => by
    cases l with
    | nil => exact absurd rfl hl
    | cons => exact ⟨1, 0, rfl⟩⟩

end Verif
