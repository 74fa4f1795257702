import Verif.Props.AeroDyn
import Verif.Props.AfSearch
import Verif.Props.Moments
import Verif.Props.Unsteady
import Mathlib.Data.List.Permutation
import Mathlib.Algebra.Order.BigOperators.Group.Finset
import Mathlib.Analysis.SpecialFunctions.Pow.Real

/-!
# The airfoil object of a file (C100)

`CCAirfoil.initFromAerodynFile` from the text of the file to the values of `evaluate` at the tabulated points.
-/

namespace Verif

/-! ## Specification -/

/-- A table that can be interpolated: at least one row, increasing angles. -/
def AfTable.Usable (t : AfTable ℝ) : Prop := t.rows ≠ [] ∧ (t.rows.map fun q => q.alpha).Pairwise (· < ·)

/-- A coefficient of a row -/
def AfRow.coef (q : AfRow ℝ) : Col → ℝ
  | .cl => q.cl
  | .cd => q.cd
  | .cm => q.cm

/-- The smoothing of `RectBivariateSpline` for the three coefficients (ccblade.py ll. 89, 90, 94) -/
noncomputable def smoothing : Col → ℝ
  | .cl => 1 / 10
  | .cd => 1 / 1000
  | .cm => 1 / 10000

/-- What the documentation of the spline routine says about its parameter `s`: the sum of the squared residuals at the data points
does not exceed `s`, up to the relative tolerance `tol` (0.001 in FITPACK). -/
def SplineFit.Close (fit : SplineFit ℝ) (tol : ℝ) : Prop :=
  ∀ (x y : List ℝ) (z : Mat ℝ) (kx ky : ℕ) (s : ℝ) (S : Spline ℝ), 0 ≤ s → fit x y z kx ky s = .ok S →
    ∑ i ∈ Finset.range x.length, ∑ j ∈ Finset.range y.length, (S.ev (x.getD i 0) (y.getD j 0) - z.get i j) ^ 2 ≤ s * (1 + tol)

/-- The value of `evaluate` for a coefficient, the moment requested -/
noncomputable def CCAf.coef (af : CCAf ℝ) (c : Col) (alpha Re : ℝ) : Option ℝ :=
  match c with
  | .cl => some (af.evaluate alpha Re true).1
  | .cd => some (af.evaluate alpha Re true).2.1
  | .cm => (af.evaluate alpha Re true).2.2

/-! ## Helpers -/

theorem smoothing_nonneg (c : Col) : 0 ≤ smoothing c := by cases c <;> norm_num [smoothing]

theorem perm_map_inv {α β : Type} (f : α → β) {l m : List β} (h : l.Perm m) :
    ∀ t : List α, m = t.map f → ∃ t' : List α, t'.Perm t ∧ l = t'.map f := by
  induction h with
  | nil =>
    intro t ht
    obtain rfl : t = [] := by simpa using ht.symm
    exact ⟨[], .refl _, rfl⟩
  | cons x _ ih =>
    intro t ht
    obtain ⟨a, t, rfl, rfl, h3⟩ := List.map_eq_cons_iff.1 ht.symm
    obtain ⟨t', h4, h5⟩ := ih t h3.symm
    exact ⟨a :: t', h4.cons a, by simp [h5]⟩
  | swap x y l =>
    intro t ht
    obtain ⟨a, t, rfl, rfl, h3⟩ := List.map_eq_cons_iff.1 ht.symm
    obtain ⟨b, t, rfl, rfl, h4⟩ := List.map_eq_cons_iff.1 h3
    exact ⟨b :: a :: t, List.Perm.swap _ _ _, by simp [h4]⟩
  | trans _ _ ih1 ih2 =>
    intro t ht
    obtain ⟨t1, h1, h2⟩ := ih2 t ht
    obtain ⟨t2, h3, h4⟩ := ih1 t1 h2
    exact ⟨t2, h3.trans h1, h4⟩

/-- The matrix of a coefficient -/
def DataGrid.col (g : DataGrid ℝ) : Col → Mat ℝ
  | .cl => g.cl
  | .cd => g.cd
  | .cm => g.cm

theorem AfTable.Usable.wf {t : AfTable ℝ} (h : t.Usable) : t.polar.WF :=
  ⟨by simpa [AfTable.polar] using h.1, h.2, fun c => by cases c <;> simp [AfTable.polar, Polar.col]⟩

theorem interpVal_row {t : AfTable ℝ} (h : t.Usable) (q : AfRow ℝ) (hq : q ∈ t.rows) (c : Col) :
    interpVal t.polar.alpha (t.polar.col c) q.alpha = q.coef c := by
  obtain ⟨i, hi⟩ := List.mem_iff_getElem?.1 hq
  have hinc := List.pairwise_iff_getElem.1 h.2
  obtain ⟨hi1, hi2⟩ := List.getElem?_eq_some_iff.1 hi
  refine interpVal_at _ _ i _ _ (by simp [AfTable.polar, hi]) (by cases c <;> simp [AfTable.polar, Polar.col, AfRow.coef, hi]) ?_ ?_
  · intro j z hj hz
    simp only [AfTable.polar] at hz
    obtain ⟨hj1, rfl⟩ := List.getElem?_eq_some_iff.1 hz
    have := hinc j i hj1 (by simpa using hi1) hj
    simp only [List.getElem_map, hi2] at this ⊢
    exact this.le
  · intro j z hj hz
    simp only [AfTable.polar] at hz
    obtain ⟨hj1, rfl⟩ := List.getElem?_eq_some_iff.1 hz
    have := hinc i j (by simpa using hi1) hj1 hj
    simpa only [List.getElem_map, hi2] using this

/-! ## From the file to the splines -/

/-- **C100** Reading a well-formed file whose tables have increasing angles is constructing the airfoil from the data of the file: the
angles of all tables in increasing order, the Reynolds numbers of the tables in ascending order, and for each coefficient the matrix
whose column belongs to the table with that Reynolds number and holds its values, interpolated linearly at the angles of the other
tables and continued by the end values. -/
theorem airfoil_file (lex : Lex ℝ) (fit : SplineFit ℝ) (s : List Char) (tables : List (AfTable ℝ)) (hne : tables ≠ [])
    (h : WellFormed lex s tables) (hu : ∀ t ∈ tables, t.Usable) (fuel : ℕ) (hf : s.length < fuel) :
    ∃ (ts : List (AfTable ℝ)) (grid : List ℝ) (M : Col → Mat ℝ),
      ts.Perm tables ∧ (ts.map AfTable.millions).Pairwise (· ≤ ·) ∧
      grid.Pairwise (· < ·) ∧ (∀ x, x ∈ grid ↔ ∃ t ∈ tables, ∃ q ∈ t.rows, q.alpha = x) ∧
      (∀ c, (M c).rows = grid.length ∧ (M c).cols = ts.length ∧
        ∀ (j : ℕ) (t : AfTable ℝ) (i : ℕ) (x : ℝ), ts[j]? = some t → grid[i]? = some x →
          t.polar.AtClamped c x ((M c).get i j) ∧ ∀ q ∈ t.rows, q.alpha = x → (M c).get i j = q.coef c) ∧
      CCAf.read lex fit fuel s =
        some (CCAf.build fit grid (ts.map fun t => t.millions * 1000000) (M .cl) (M .cd) (M .cm)) := by
  obtain ⟨af, hr, hp, hs⟩ := aerodyn_reader lex s tables hne h fuel hf
  obtain ⟨ts, hts, hpol⟩ := perm_map_inv AfTable.polar hp tables rfl
  have hw : ∀ p ∈ af.polars, p.WF := by
    rw [hpol]
    intro p hp
    obtain ⟨t, ht, rfl⟩ := List.mem_map.1 hp
    exact (hu t (hts.mem_iff.1 ht)).wf
  have hne' : af.polars ≠ [] := by
    intro e
    rw [e] at hp
    exact hne (by simpa using hp.symm.eq_nil)
  have hok := interpToCommonAlpha_ok af hne' hs hw none
  obtain ⟨af2, g, h2, h3, hRe, hsh, hent⟩ := createDataGrid_spec af hne' hs hw
  rw [hok, Except.ok.injEq] at h2
  have hlen : 0 < af.polars.length := List.length_pos_iff.2 hne'
  have hga : g.alpha = chosenGrid af none := by
    have := (hent 0 (regrid (chosenGrid af none) af.polars[0]) (by rw [← h2]; simp [List.getElem?_eq_getElem hlen])).1
    exact this.symm
  have hg1 : g.alpha.Pairwise (· < ·) := by rw [hga]; exact foldl_union_strict _ _ List.Pairwise.nil
  have hg2 : ∀ x, x ∈ g.alpha ↔ ∃ t ∈ tables, ∃ q ∈ t.rows, q.alpha = x := by
    intro x
    rw [hga]
    simp only [chosenGrid, mem_foldl_union, List.not_mem_nil, false_or, hpol, List.mem_map]
    constructor
    · rintro ⟨p, ⟨t, ht, rfl⟩, hx⟩
      obtain ⟨q, hq, rfl⟩ := List.mem_map.1 hx
      exact ⟨t, hts.mem_iff.1 ht, q, hq, rfl⟩
    · rintro ⟨t, ht, q, hq, rfl⟩
      exact ⟨t.polar, ⟨t, hts.mem_iff.2 ht, rfl⟩, List.mem_map.2 ⟨q, hq, rfl⟩⟩
  have hRe' : g.Re = ts.map fun t => t.millions * 1000000 := by
    rw [hRe, hpol, List.map_map]; rfl
  refine ⟨ts, g.alpha, g.col, hts, ?_, hg1, hg2, ?_, ?_⟩
  · rw [hpol, List.map_map, List.pairwise_map] at hs
    rw [List.pairwise_map]
    refine hs.imp ?_
    intro a b hab
    simp only [Function.comp, AfTable.polar] at hab
    linarith
  · intro c
    have hl : g.Re.length = ts.length := by rw [hRe', List.length_map]
    have hsh' : (g.col c).rows = g.alpha.length ∧
        (g.col c).cols = ts.length := by
      cases c
      · exact ⟨(hsh g.cl (by simp)).1, by rw [← hl]; exact (hsh g.cl (by simp)).2⟩
      · exact ⟨(hsh g.cd (by simp)).1, by rw [← hl]; exact (hsh g.cd (by simp)).2⟩
      · exact ⟨(hsh g.cm (by simp)).1, by rw [← hl]; exact (hsh g.cm (by simp)).2⟩
    refine ⟨hsh'.1, hsh'.2, fun j t i x hj hi => ?_⟩
    have htu := hu t (hts.mem_iff.1 (List.mem_of_getElem? hj))
    have e := (hent j (regrid (chosenGrid af none) t.polar) (by rw [← h2]; simp [hpol, hj])).2 i
      (interpVal t.polar.alpha (t.polar.col c) x)
    rw [← hga] at e
    have hM : (g.col c).get i j =
        interpVal t.polar.alpha (t.polar.col c) x := by
      cases c
      · exact e.1 (by simp [regrid, hi, Polar.col])
      · exact e.2.1 (by simp [regrid, hi, Polar.col])
      · exact e.2.2 (by simp [regrid, hi, Polar.col])
    rw [hM]
    refine ⟨interpVal_clamped _ htu.wf c x, ?_⟩
    rintro q hq rfl
    exact interpVal_row htu q hq c
  · unfold CCAf.read CCAf.ofAirfoil
    rw [hr]
    simp only [h3, bind, Except.bind, hRe', DataGrid.col]

theorem mapM_mem {β γ : Type} (f : β → Except PyErr γ) : ∀ (l : List β) (r : List γ), l.mapM f = .ok r → ∀ b ∈ l, ∃ c ∈ r, f b = .ok c
  | [], _, _, b, hb => by simp at hb
  | a :: l, r, h, b, hb => by
    rw [List.mapM_cons] at h
    obtain ⟨c, hc, h⟩ := bind_inv h
    obtain ⟨cs, hcs, h⟩ := bind_inv h
    cases h
    rcases List.mem_cons.1 hb with rfl | hb
    · exact ⟨c, by simp, hc⟩
    · obtain ⟨c', h1, h2⟩ := mapM_mem f l cs hcs b hb
      exact ⟨c', by simp [h1], h2⟩

theorem mapM_mem' {β γ : Type} (f : β → Except PyErr γ) : ∀ (l : List β) (r : List γ), l.mapM f = .ok r → ∀ c ∈ r, ∃ b ∈ l, f b = .ok c
  | [], r, h, c, hc => by cases h; simp at hc
  | a :: l, r, h, c, hc => by
    rw [List.mapM_cons] at h
    obtain ⟨c', hc', h⟩ := bind_inv h
    obtain ⟨cs, hcs, h⟩ := bind_inv h
    cases h
    rcases List.mem_cons.1 hc with rfl | hc
    · exact ⟨a, by simp, hc'⟩
    · obtain ⟨b, h1, h2⟩ := mapM_mem' f l cs hcs c hc
      exact ⟨b, by simp [h1], h2⟩

/-- **C100** Nothing else yields an airfoil: whatever is constructed from a file comes from a well-formed file with at least one table,
none of them empty, and with at least two different angles. -/
theorem airfoil_file_sound (lex : Lex ℝ) (fit : SplineFit ℝ) (fuel : ℕ) (s : List Char) (af : CCAf ℝ)
    (h : CCAf.read lex fit fuel s = some (.ok af)) :
    ∃ tables, tables ≠ [] ∧ WellFormed lex s tables ∧ (∀ t ∈ tables, t.rows ≠ []) ∧
      ∃ t ∈ tables, ∃ q ∈ t.rows, ∃ t' ∈ tables, ∃ q' ∈ t'.rows, q.alpha < q'.alpha := by
  unfold CCAf.read at h
  split at h
  · cases h
  · cases h
  · rename_i a ha
    obtain ⟨tables, hne, hw, hp, -⟩ := aerodyn_reader_sound lex fuel s a ha
    simp only [Option.some.injEq, CCAf.ofAirfoil] at h
    obtain ⟨g, hg, hb⟩ := bind_inv h
    unfold AfSet.createDataGrid at hg
    obtain ⟨a1, ha1, hg⟩ := bind_inv hg
    obtain ⟨p0, hp0, hg⟩ := bind_inv hg
    cases hg
    unfold AfSet.interpToCommonAlpha at ha1
    obtain ⟨ps, hps, hbd⟩ := bind_inv ha1
    have hgrid : p0.alpha = chosenGrid a none := by
      have hm : p0 ∈ a1.polars := by
        cases hl : a1.polars with
        | nil => rw [hl] at hp0; cases hp0
        | cons b l => rw [hl] at hp0; cases hp0; simp
      have hm' : p0 ∈ ps := by
        cases ps with
        | nil => cases hbd
        | cons b l =>
          cases hbd
          exact (List.perm_insertionSort _ _).subset hm
      obtain ⟨b, -, h2⟩ := mapM_mem' _ _ _ hps p0 hm'
      unfold Polar.onGrid at h2
      obtain ⟨_, -, h2⟩ := bind_inv h2
      obtain ⟨_, -, h2⟩ := bind_inv h2
      obtain ⟨_, -, h2⟩ := bind_inv h2
      cases h2
      rfl
    have hpw : p0.alpha.Pairwise (· < ·) := by rw [hgrid]; exact foldl_union_strict _ _ List.Pairwise.nil
    have hmem : ∀ x ∈ p0.alpha, ∃ t ∈ tables, ∃ q ∈ t.rows, q.alpha = x := by
      intro x hx
      rw [hgrid] at hx
      simp only [chosenGrid, mem_foldl_union, List.not_mem_nil, false_or] at hx
      obtain ⟨p, h1, h2⟩ := hx
      obtain ⟨t, ht, rfl⟩ := List.mem_map.1 (hp.subset h1)
      obtain ⟨q, hq, rfl⟩ := List.mem_map.1 h2
      exact ⟨t, ht, q, hq, rfl⟩
    refine ⟨tables, hne, hw, fun t ht e => ?_, ?_⟩
    · obtain ⟨c, -, hc⟩ := mapM_mem _ _ _ hps t.polar (hp.symm.subset (List.mem_map_of_mem ht))
      simp [Polar.onGrid, AfTable.polar, e, npInterps, bind, Except.bind] at hc
    · have h2 := (airfoil_fits fit _ _ _ _ _ af hb).1
      cases hl : p0.alpha with
      | nil => simp [hl] at h2
      | cons x l =>
        cases l with
        | nil => simp [hl] at h2
        | cons y l =>
          rw [hl] at hpw hmem
          obtain ⟨t, h3, q, h4, h5⟩ := hmem x (by simp)
          obtain ⟨t', h6, q', h7, h8⟩ := hmem y (by simp)
          refine ⟨t, h3, q, h4, t', h6, q', h7, ?_⟩
          rw [h5, h8]
          exact (List.pairwise_cons.1 hpw).1 y (by simp)

/-! ## How far the values are from the table -/

theorem sq_le_sum (n m : ℕ) (f : ℕ → ℕ → ℝ) (i j : ℕ) (hi : i < n) (hj : j < m) :
    f i j ^ 2 ≤ ∑ i ∈ Finset.range n, ∑ j ∈ Finset.range m, f i j ^ 2 := by
  refine le_trans ?_ (Finset.single_le_sum (f := fun i => ∑ j ∈ Finset.range m, f i j ^ 2)
    (fun k _ => Finset.sum_nonneg fun _ _ => sq_nonneg _) (Finset.mem_range.2 hi))
  exact Finset.single_le_sum (f := fun j => f i j ^ 2) (fun k _ => sq_nonneg _) (Finset.mem_range.2 hj)

/-- The matrices given to the constructor, by coefficient -/
def tableOf (cl cd cm : Mat ℝ) : Col → Mat ℝ
  | .cl => cl
  | .cd => cd
  | .cm => cm

/-- Every coefficient is the value of a spline fitted with the smoothing of that coefficient. -/
theorem coef_fit (fit : SplineFit ℝ) (alphaDeg Re : List ℝ) (cl cd cm : Mat ℝ) (af : CCAf ℝ)
    (h : CCAf.build fit alphaDeg Re cl cd cm = .ok af) (hm : 0 < cm.rows) (c : Col) :
    ∃ (S : Spline ℝ) (kx ky : ℕ),
      fit (alphaDeg.map deg2rad) (if Re.length < 2 then [10, 10 ^ 15] else Re)
        (if Re.length < 2 then matTwice (tableOf cl cd cm c) else tableOf cl cd cm c) kx ky (smoothing c) = .ok S ∧
      ∀ a R, af.coef c a R = some (S.ev a R) := by
  obtain ⟨-, -, -, h1, h2, -, h3⟩ := airfoil_fits fit alphaDeg Re cl cd cm af h
  obtain ⟨s, hs, h3⟩ := h3 hm
  simp only [num_real, Nat.cast_one, Nat.cast_ofNat, Nat.cast_pow] at h1 h2 h3
  cases c
  · exact ⟨_, _, _, h1, fun a R => rfl⟩
  · exact ⟨_, _, _, h2, fun a R => rfl⟩
  · exact ⟨_, _, _, h3, fun a R => by simp [CCAf.coef, CCAf.evaluate, hs]⟩

/-- **C100** With two or more Reynolds numbers, the squared differences between the table and `evaluate` at all its points add up to no
more than the smoothing: 0.1 for the lift, 0.001 for the drag, 0.0001 for the moment. -/
theorem airfoil_near_table (fit : SplineFit ℝ) (tol : ℝ) (hfit : fit.Close tol) (alphaDeg Re : List ℝ) (cl cd cm : Mat ℝ) (af : CCAf ℝ)
    (h : CCAf.build fit alphaDeg Re cl cd cm = .ok af) (hm : 0 < cm.rows) (hRe : 2 ≤ Re.length) (c : Col) :
    ∃ v : ℕ → ℕ → ℝ, (∀ i j : ℕ, i < alphaDeg.length → j < Re.length →
        af.coef c (alphaDeg.getD i 0 * (Real.pi / 180)) (Re.getD j 0) = some (v i j)) ∧
      ∑ i ∈ Finset.range alphaDeg.length, ∑ j ∈ Finset.range Re.length, (v i j - (tableOf cl cd cm c).get i j) ^ 2 ≤
        smoothing c * (1 + tol) := by
  obtain ⟨S, kx, ky, hS, hv⟩ := coef_fit fit alphaDeg Re cl cd cm af h hm c
  have hn : ¬ Re.length < 2 := by omega
  simp only [hn, if_false] at hS
  have hc := hfit _ _ _ _ _ _ _ (smoothing_nonneg c) hS
  rw [List.length_map] at hc
  refine ⟨fun i j => S.ev ((alphaDeg.map deg2rad).getD i 0) (Re.getD j 0), fun i j hi _ => ?_, hc⟩
  rw [hv]
  simp [List.getD_eq_getElem?_getD, List.getElem?_eq_getElem hi, real_deg2rad]

/-- **C100** With one Reynolds number, the squared differences between the table and `evaluate` at its angles, whatever the Reynolds
number, add up to no more than half the smoothing. -/
theorem airfoil_near_table_one (fit : SplineFit ℝ) (tol : ℝ) (hfit : fit.Close tol) (hk : fit.KeepsConstancy) (alphaDeg Re : List ℝ)
    (cl cd cm : Mat ℝ) (af : CCAf ℝ) (h : CCAf.build fit alphaDeg Re cl cd cm = .ok af) (hm : 0 < cm.rows) (hRe : Re.length < 2)
    (c : Col) (hcols : (tableOf cl cd cm c).cols = 1) (R : ℝ) :
    ∃ v : ℕ → ℝ, (∀ i : ℕ, i < alphaDeg.length → af.coef c (alphaDeg.getD i 0 * (Real.pi / 180)) R = some (v i)) ∧
      ∑ i ∈ Finset.range alphaDeg.length, (v i - (tableOf cl cd cm c).get i 0) ^ 2 ≤ smoothing c / 2 * (1 + tol) := by
  obtain ⟨S, kx, ky, hS, hv⟩ := coef_fit fit alphaDeg Re cl cd cm af h hm c
  simp only [hRe, if_true] at hS
  have hc := hfit _ _ _ _ _ _ _ (smoothing_nonneg c) hS
  have hcon := hk _ _ _ _ _ _ _ hS (by
    intro i j j' hj hj'
    simp only [matTwice, hcols] at hj hj' ⊢
    obtain rfl | rfl : j = 0 ∨ j = 1 := by omega
    all_goals obtain rfl | rfl : j' = 0 ∨ j' = 1 := by omega
    all_goals simp)
  rw [List.length_map] at hc
  refine ⟨fun i => S.ev ((alphaDeg.map deg2rad).getD i 0) R, fun i hi => ?_, ?_⟩
  · rw [hv]
    simp [List.getD_eq_getElem?_getD, List.getElem?_eq_getElem hi, real_deg2rad]
  · have e : ∀ i, ∑ j ∈ Finset.range 2, (S.ev ((alphaDeg.map deg2rad).getD i 0) (([10, 10 ^ 15] : List ℝ).getD j 0) -
        (matTwice (tableOf cl cd cm c)).get i j) ^ 2 =
        2 * (S.ev ((alphaDeg.map deg2rad).getD i 0) R - (tableOf cl cd cm c).get i 0) ^ 2 := by
      intro i
      rw [Finset.sum_range_succ, Finset.sum_range_one, hcon _ _ R, hcon _ (List.getD _ 1 _) R]
      simp [matTwice, hcols]
      ring
    simp only [List.length_cons, List.length_nil, Nat.reduceAdd, e, ← Finset.mul_sum] at hc
    linarith

/-- **C100** From the file to `evaluate`: at every row of every table, and its Reynolds number, the object read from the file returns the
coefficients of the row up to the square root of the smoothing (0.32 for the lift, 0.032 for the drag, 0.01 for the moment);
with a single table at every Reynolds number, and up to the square root of half of it. -/
theorem airfoil_file_near (lex : Lex ℝ) (fit : SplineFit ℝ) (tol : ℝ) (hfit : fit.Close tol) (hk : fit.KeepsConstancy) (s : List Char)
    (tables : List (AfTable ℝ)) (hne : tables ≠ []) (h : WellFormed lex s tables) (hu : ∀ t ∈ tables, t.Usable) (fuel : ℕ)
    (hf : s.length < fuel) (af : CCAf ℝ) (hread : CCAf.read lex fit fuel s = some (.ok af)) (t : AfTable ℝ) (ht : t ∈ tables)
    (q : AfRow ℝ) (hq : q ∈ t.rows) (c : Col) :
    (2 ≤ tables.length → ∃ v, af.coef c (q.alpha * (Real.pi / 180)) (t.millions * 1000000) = some v ∧
      |v - q.coef c| ≤ √(smoothing c * (1 + tol))) ∧
    (tables.length = 1 → ∀ R, ∃ v, af.coef c (q.alpha * (Real.pi / 180)) R = some v ∧
      |v - q.coef c| ≤ √(smoothing c / 2 * (1 + tol))) := by
  obtain ⟨ts, grid, M, hts, -, -, hmem, hM, hr⟩ := airfoil_file lex fit s tables hne h hu fuel hf
  rw [hread, Option.some.injEq] at hr
  have hr := hr.symm
  obtain ⟨j, hj⟩ := List.mem_iff_getElem?.1 (hts.mem_iff.2 ht)
  obtain ⟨i, hi⟩ := List.mem_iff_getElem?.1 ((hmem q.alpha).2 ⟨t, ht, q, hq, rfl⟩)
  have hil := (List.getElem?_eq_some_iff.1 hi).1
  have hjl := (List.getElem?_eq_some_iff.1 hj).1
  have hval : (M c).get i j = q.coef c := ((hM c).2.2 j t i _ hj hi).2 q hq rfl
  have htab : tableOf (M .cl) (M .cd) (M .cm) c = M c := by cases c <;> rfl
  have hrows : 0 < (M .cm).rows := by rw [(hM .cm).1]; omega
  have hgi : grid.getD i 0 = q.alpha := by simp [List.getD_eq_getElem?_getD, hi]
  refine ⟨fun h2 => ?_, fun h1 R => ?_⟩
  · obtain ⟨v, hv, hsum⟩ := airfoil_near_table fit tol hfit _ _ _ _ _ af hr hrows (by simpa [hts.length_eq] using h2) c
    have hv := hv i j hil (by simpa using hjl)
    rw [hgi] at hv
    refine ⟨v i j, by rw [← hv]; simp [List.getD_eq_getElem?_getD, hj], ?_⟩
    rw [← hval, ← htab]
    refine Real.abs_le_sqrt (le_trans ?_ hsum)
    exact sq_le_sum _ _ (fun i j => v i j - (tableOf (M .cl) (M .cd) (M .cm) c).get i j) i j hil (by simpa using hjl)
  · have hl1 : ts.length = 1 := by rw [hts.length_eq, h1]
    obtain rfl : j = 0 := by omega
    obtain ⟨v, hv, hsum⟩ := airfoil_near_table_one fit tol hfit hk _ _ _ _ _ af hr hrows (by simp [hl1]) c
      (by rw [htab, (hM c).2.1, hl1]) R
    have hv := hv i hil
    rw [hgi] at hv
    refine ⟨v i, hv, ?_⟩
    rw [← hval, ← htab]
    refine Real.abs_le_sqrt (le_trans ?_ hsum)
    exact Finset.single_le_sum (f := fun i => (v i - (tableOf (M .cl) (M .cd) (M .cm) c).get i 0) ^ 2) (fun k _ => sq_nonneg _)
      (Finset.mem_range.2 hil)

/-! ## Cases -/

/-- A position of `v` in `l`; the first one if `v` does not occur -/
noncomputable def posOf (l : List ℝ) (v : ℝ) : ℕ := if v ∈ l then l.idxOf v else 0

/-- A surface through all points of the table, displaced by `d s` at the first angle and the last Reynolds number -/
noncomputable def stepFit (d : ℝ → ℝ) : SplineFit ℝ := fun x y z _ _ s =>
  if x.Nodup ∧ y.Nodup ∧ x ≠ [] ∧ y ≠ [] ∧ z.rows = x.length ∧ z.cols = y.length then
    .ok ⟨fun a b => z.get (posOf x a) (posOf y b) + if posOf x a = 0 ∧ posOf y b + 1 = y.length then d s else 0, fun _ _ => .ok 0, fun _ _ => .ok 0⟩
  else .error .valueError

theorem posOf_getD {l : List ℝ} (h : l.Nodup) {i : ℕ} (hi : i < l.length) : posOf l (l.getD i 0) = i := by
  have e : l.getD i 0 = l[i] := by simp [List.getD_eq_getElem?_getD, List.getElem?_eq_getElem hi]
  rw [e, posOf, if_pos (List.getElem_mem hi)]
  exact List.Nodup.idxOf_getElem h i hi

theorem posOf_lt {l : List ℝ} (h : l ≠ []) (v : ℝ) : posOf l v < l.length := by
  unfold posOf
  split_ifs with hv
  · exact List.idxOf_lt_length_of_mem hv
  · exact List.length_pos_iff.2 h

theorem stepFit_close (d : ℝ → ℝ) (tol : ℝ) (hd : ∀ s, 0 ≤ s → d s ^ 2 ≤ s * (1 + tol)) : (stepFit d).Close tol := by
  intro x y z kx ky s S hs h
  unfold stepFit at h
  split_ifs at h with hc
  obtain ⟨hx, hy, hx0, hy0, -, -⟩ := hc
  cases h
  have e : ∀ i ∈ Finset.range x.length, ∑ j ∈ Finset.range y.length,
      ((z.get (posOf x (x.getD i 0)) (posOf y (y.getD j 0)) +
        if posOf x (x.getD i 0) = 0 ∧ posOf y (y.getD j 0) + 1 = y.length then d s else 0) - z.get i j) ^ 2 = if i = 0 then d s ^ 2 else 0 := by
    intro i hi
    rw [Finset.mem_range] at hi
    have e' : ∀ j ∈ Finset.range y.length, ((z.get (posOf x (x.getD i 0)) (posOf y (y.getD j 0)) +
        if posOf x (x.getD i 0) = 0 ∧ posOf y (y.getD j 0) + 1 = y.length then d s else 0) - z.get i j) ^ 2 =
        if j = y.length - 1 then (if i = 0 then d s ^ 2 else 0) else 0 := by
      intro j hj
      rw [Finset.mem_range] at hj
      rw [posOf_getD hx hi, posOf_getD hy hj]
      have h3 : j + 1 = y.length ↔ j = y.length - 1 := by omega
      simp only [h3]
      by_cases h1 : i = 0 <;> by_cases h2 : j = y.length - 1 <;> simp [h1, h2]
    rw [Finset.sum_congr rfl e', Finset.sum_ite_eq' (Finset.range y.length) (y.length - 1)]
    simp [List.length_pos_iff.2 hy0]
  rw [Finset.sum_congr rfl e, Finset.sum_ite_eq' (Finset.range x.length) 0]
  simpa [List.length_pos_iff.2 hx0] using hd s hs

theorem stepFit_keeps : (stepFit fun _ => 0).KeepsConstancy := by
  intro x y z kx ky s S h hz a b b'
  unfold stepFit at h
  split_ifs at h with hc
  obtain ⟨hx, hy, hx0, hy0, -, hcol⟩ := hc
  cases h
  simp only [ite_self, add_zero]
  exact hz _ _ _ (by rw [hcol]; exact posOf_lt hy0 b) (by rw [hcol]; exact posOf_lt hy0 b')

/-- A table in a file of the two given tables -/
def twoRes : List Char :=
  withLines (["a", "b", "c", "2", "3.0", "0", "0", "0", "0", "0", "0", "0", "0", "0.0 0.5 0.1 0.2", "90.0 0.9 0.3 0.4", "EOT",
    "1.0", "0", "0", "0", "0", "0", "0", "0", "0", "45.0 0.7 0.8 0.6", "EOT"].map String.toList)

noncomputable def highRe : AfTable ℝ := ⟨3, [⟨0, 1 / 2, 1 / 10, 1 / 5⟩, ⟨90, 9 / 10, 3 / 10, 2 / 5⟩]⟩

noncomputable def lowRe : AfTable ℝ := ⟨1, [⟨45, 7 / 10, 4 / 5, 3 / 5⟩]⟩

theorem twoRes_wf : WellFormed decimalLex twoRes [highRe, lowRe] := by
  have z : StartsWith decimalLex "0".toList 0 := ⟨['0'], [], by decide, by read_decimal⟩
  refine ⟨"a".toList, "b".toList, "c".toList, "2".toList, ['2'], [],
    [["3.0", "0", "0", "0", "0", "0", "0", "0", "0", "0.0 0.5 0.1 0.2", "90.0 0.9 0.3 0.4", "EOT"].map String.toList,
     ["1.0", "0", "0", "0", "0", "0", "0", "0", "0", "45.0 0.7 0.8 0.6", "EOT"].map String.toList],
    [], ?_, by decide, by read_decimal, ?_⟩
  · rw [twoRes, linesOf_withLines _ (by simp) (by decide)]
    rfl
  · have hz : ∀ p ∈ ["0", "0", "0", "0", "0", "0", "0", "0"].map String.toList, ∃ x, StartsWith decimalLex p x := by
      intro p hp
      simp only [List.map_cons, List.map_nil, List.mem_cons, List.not_mem_nil, or_false, or_self] at hp
      exact ⟨0, by rw [hp]; exact z⟩
    refine .cons ⟨"3.0".toList, ["0", "0", "0", "0", "0", "0", "0", "0"].map String.toList,
      ["0.0 0.5 0.1 0.2", "90.0 0.9 0.3 0.4"].map String.toList, "EOT".toList, rfl,
      ⟨['3', '.', '0'], [], by decide, by simp only [highRe]; read_decimal⟩, rfl, hz, ?_, ⟨[], [], rfl⟩⟩
      (.cons ⟨"1.0".toList, ["0", "0", "0", "0", "0", "0", "0", "0"].map String.toList, ["45.0 0.7 0.8 0.6"].map String.toList,
        "EOT".toList, rfl, ⟨['1', '.', '0'], [], by decide, by simp only [lowRe]; read_decimal⟩, rfl, hz, ?_, ⟨[], [], rfl⟩⟩ .nil)
    · refine .cons ⟨by rw [← hasEOT_iff]; decide, [], ?_⟩ (.cons ⟨by rw [← hasEOT_iff]; decide, [], ?_⟩ .nil)
      · rw [show wordsOf "0.0 0.5 0.1 0.2".toList = ["0.0", "0.5", "0.1", "0.2"].map String.toList by decide]
        read_decimal
      · rw [show wordsOf "90.0 0.9 0.3 0.4".toList = ["90.0", "0.9", "0.3", "0.4"].map String.toList by decide]
        read_decimal
    · refine .cons ⟨by rw [← hasEOT_iff]; decide, [], ?_⟩ .nil
      rw [show wordsOf "45.0 0.7 0.8 0.6".toList = ["45.0", "0.7", "0.8", "0.6"].map String.toList by decide]
      read_decimal

theorem twoRes_usable : ∀ t ∈ [highRe, lowRe], t.Usable := by
  intro t ht
  simp only [List.mem_cons, List.not_mem_nil, or_false] at ht
  rcases ht with rfl | rfl <;> refine ⟨by simp [highRe, lowRe], ?_⟩ <;> norm_num [highRe, lowRe]

theorem increasing_ext {l m : List ℝ} (hl : l.Pairwise (· < ·)) (hm : m.Pairwise (· < ·)) (h : ∀ x, x ∈ l ↔ x ∈ m) : l = m :=
  List.Perm.eq_of_pairwise (fun _ _ _ _ h1 h2 => absurd h2 (not_lt.2 h1.le)) hl hm
    ((List.perm_ext_iff_of_nodup (hl.imp fun h => ne_of_lt h) (hm.imp fun h => ne_of_lt h)).2 h)

/-- The file is read, with the angles 0, 45, 90 and the Reynolds numbers 1 and 3 million. -/
theorem twoRes_read (d : ℝ → ℝ) : ∃ af, CCAf.read decimalLex (stepFit d) (twoRes.length + 1) twoRes = some (.ok af) ∧
    af.coef .cl 0 3000000 = some (1 / 2 + d (1 / 10)) := by
  obtain ⟨ts, grid, M, hts, hs, hg, hmem, hM, hr⟩ := airfoil_file decimalLex (stepFit d) twoRes [highRe, lowRe] (by simp) twoRes_wf
    twoRes_usable (twoRes.length + 1) (by omega)
  have hgrid : grid = [0, 45, 90] := by
    refine increasing_ext hg (by norm_num) fun x => ?_
    rw [hmem]
    simp [highRe, lowRe]
    constructor
    · rintro ((rfl | rfl) | rfl) <;> simp
    · rintro (rfl | rfl | rfl) <;> simp
  have hts' : ts = [lowRe, highRe] := by
    have h2 : ts = [highRe, lowRe] ∨ ts = [lowRe, highRe] := List.perm_pair.1 hts
    rcases h2 with rfl | rfl
    · norm_num [highRe, lowRe] at hs
    · rfl
  subst hgrid hts'
  have hx : ([0, 45, 90].map deg2rad : List ℝ) = [0, 45 * (Real.pi / 180), 90 * (Real.pi / 180)] := by simp [real_deg2rad]
  have hpi := Real.pi_pos
  have hnd : ([0, 45, 90].map deg2rad : List ℝ).Nodup := by
    refine List.Nodup.map ?_ (by norm_num)
    intro a b hab
    simp only [real_deg2rad] at hab
    exact mul_right_cancel₀ (by positivity) hab
  have hfit : ∀ (c : Col) (kx ky : ℕ) (s : ℝ), ∃ S, stepFit d ([0, 45, 90].map deg2rad)
      ([lowRe, highRe].map fun t => t.millions * 1000000) (M c) kx ky s = .ok S ∧
      S.ev 0 3000000 = (M c).get 0 1 + d s := by
    intro c kx ky s
    unfold stepFit
    rw [if_pos ⟨hnd, by norm_num [highRe, lowRe], by simp, by simp, by rw [(hM c).1]; simp, by rw [(hM c).2.1]; simp⟩]
    refine ⟨_, rfl, ?_⟩
    have e1 : posOf ([0, 45, 90].map deg2rad) 0 = 0 := by rw [hx]; simp [posOf]
    have e2 : posOf ([lowRe, highRe].map fun t => t.millions * 1000000) 3000000 = 1 := by
      have := posOf_getD (l := [lowRe, highRe].map fun t => t.millions * 1000000) (by norm_num [highRe, lowRe]) (i := 1) (by simp)
      rwa [show ([lowRe, highRe].map fun t => t.millions * 1000000).getD 1 0 = 3000000 by norm_num [highRe]] at this
    simp only [e1, e2]
    simp
  obtain ⟨S1, h1, h1'⟩ := hfit .cl 2 1 (1 / 10)
  obtain ⟨S2, h2, -⟩ := hfit .cd 2 1 (1 / 1000)
  obtain ⟨S3, h3, -⟩ := hfit .cm 2 1 (1 / 10000)
  refine ⟨⟨[0, 45, 90].map deg2rad, false, S1, S2, some S3⟩, ?_, ?_⟩
  · rw [hr]
    unfold CCAf.build
    have hl : ¬ ([lowRe, highRe].map fun t => t.millions * 1000000).length < 2 := by simp
    have hl2 : ¬ ([0, 45, 90].map deg2rad : List ℝ).length < 2 := by simp
    have hrow : 0 < (M .cm).rows := by rw [(hM .cm).1]; simp
    have k1 : min (([0, 45, 90].map deg2rad : List ℝ).length - 1) 3 = 2 := by simp
    have k2 : min (([lowRe, highRe].map fun t => t.millions * 1000000).length - 1) 3 = 1 := by simp
    simp only [hl, hl2, if_false, hrow, if_true, k1, k2, num_real, Nat.cast_one, Nat.cast_ofNat, h1, h2, h3, bind, Except.bind, pure,
      Except.pure, decide_false]
  · have := ((hM .cl).2.2 1 highRe 0 0 rfl rfl).2 ⟨0, 1 / 2, 1 / 10, 1 / 5⟩ (by simp [highRe]) rfl
    simp only [CCAf.coef, CCAf.evaluate, h1', this, AfRow.coef]

/-- The hypotheses of `airfoil_file_near` are met: with a surface through the points (smoothing not used, `tol = -1`) the object read
from the file returns the drag of the last row at 45 degrees and one million exactly. -/
example : ∃ af, CCAf.read decimalLex (stepFit fun _ => 0) (twoRes.length + 1) twoRes = some (.ok af) ∧
    af.coef .cd (45 * (Real.pi / 180)) (1 * 1000000) = some (4 / 5) := by
  obtain ⟨af, h, -⟩ := twoRes_read fun _ => 0
  obtain ⟨v, h1, h2⟩ := (airfoil_file_near decimalLex (stepFit fun _ => 0) (-1) (stepFit_close _ _ fun s _ => by simp) stepFit_keeps twoRes
    [highRe, lowRe] (by simp) twoRes_wf twoRes_usable _ (by omega) af h lowRe (by simp) ⟨45, 7 / 10, 4 / 5, 3 / 5⟩ (by simp [lowRe])
    .cd).1 (by simp)
  refine ⟨af, h, ?_⟩
  simp only [add_neg_cancel, mul_zero, Real.sqrt_zero, abs_nonpos_iff, AfRow.coef] at h2
  rw [show v = 4 / 5 by linarith] at h1
  exact h1

/-- **C100** It is false that the object returns the tabulated values at the tabulated points, for every spline routine that respects its
parameter `s`: the lift may be off by the square root of 0.1 – the bound of `airfoil_file_near` is attained. -/
theorem airfoil_file_exact_false : ¬ ∀ (fit : SplineFit ℝ), fit.Close 0 → ∀ (s : List Char) (tables : List (AfTable ℝ)),
    WellFormed decimalLex s tables → (∀ t ∈ tables, t.Usable) → ∀ af, CCAf.read decimalLex fit (s.length + 1) s = some (.ok af) →
    ∀ t ∈ tables, ∀ q ∈ t.rows, ∀ v, af.coef .cl (q.alpha * (Real.pi / 180)) (t.millions * 1000000) = some v →
      |v - q.cl| < √(1 / 10) := by
  intro h
  obtain ⟨af, h1, h2⟩ := twoRes_read Real.sqrt
  have := h (stepFit Real.sqrt) (stepFit_close _ _ fun s hs => by rw [Real.sq_sqrt hs]; linarith) twoRes _ twoRes_wf twoRes_usable af h1
    highRe (by simp) ⟨0, 1 / 2, 1 / 10, 1 / 5⟩ (by simp [highRe]) (1 / 2 + √(1 / 10)) (by
      rw [← h2]; norm_num [highRe])
  rw [show (1 / 2 + √(1 / 10) - 1 / 2 : ℝ) = √(1 / 10) by ring, abs_of_nonneg (Real.sqrt_nonneg _)] at this
  exact lt_irrefl _ this

end Verif
