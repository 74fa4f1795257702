import Verif.Lemmas.Polar
import Mathlib.Tactic.NormNum

/-!
# Polars and collections of polars (C56, C57, C58, C68)
-/

namespace Verif

/-! ## `Polar.blend` -/

theorem lerps_map (w : ℝ) (g : List ℝ) (f h : ℝ → ℝ) :
    lerps w (g.map f) (g.map h) = g.map (fun x => f x + w * (h x - f x)) := by
  unfold lerps
  induction g with
  | nil => rfl
  | cons a g ih => simp [ih]

/-- The angles of a blended polar. -/
noncomputable def commonGrid (p o : Polar ℝ) (lo hi : ℝ) : List ℝ :=
  (npUnion p.alpha o.alpha).filter (fun a => lo ≤ a ∧ a ≤ hi)

theorem blend_eq (p o : Polar ℝ) (hp : p.WF) (ho : o.WF) (w : ℝ) : ∃ lo hi : ℝ,
    (∀ a, (lo ≤ a ∧ a ≤ hi) ↔ p.Covers a ∧ o.Covers a) ∧
    p.blend o w = .ok ⟨p.Re + w * (o.Re - p.Re), commonGrid p o lo hi,
      (commonGrid p o lo hi).map (fun x => interpVal p.alpha p.cl x + w * (interpVal o.alpha o.cl x - interpVal p.alpha p.cl x)),
      (commonGrid p o lo hi).map (fun x => interpVal p.alpha p.cd x + w * (interpVal o.alpha o.cd x - interpVal p.alpha p.cd x)),
      (commonGrid p o lo hi).map (fun x => interpVal p.alpha p.cm x + w * (interpVal o.alpha o.cm x - interpVal p.alpha p.cm x))⟩ := by
  obtain ⟨m1, e1, h1, h1'⟩ := npMin_spec p.alpha hp.ne
  obtain ⟨m2, e2, h2, h2'⟩ := npMin_spec o.alpha ho.ne
  obtain ⟨m3, e3, h3, h3'⟩ := npMax_spec p.alpha hp.ne
  obtain ⟨m4, e4, h4, h4'⟩ := npMax_spec o.alpha ho.ne
  refine ⟨max m1 m2, min m3 m4, fun a => ⟨fun h => ?_, fun h => ?_⟩, ?_⟩
  · obtain ⟨h5, h6⟩ := h
    exact ⟨⟨⟨m1, h1, le_trans (le_max_left _ _) h5⟩, ⟨m3, h3, le_trans h6 (min_le_left _ _)⟩⟩,
      ⟨⟨m2, h2, le_trans (le_max_right _ _) h5⟩, ⟨m4, h4, le_trans h6 (min_le_right _ _)⟩⟩⟩
  · obtain ⟨⟨⟨a1, b1, c1⟩, ⟨a2, b2, c2⟩⟩, ⟨⟨a3, b3, c3⟩, ⟨a4, b4, c4⟩⟩⟩ := h
    exact ⟨max_le (le_trans (h1' _ b1) c1) (le_trans (h2' _ b3) c3), le_min (le_trans c2 (h3' _ b2)) (le_trans c4 (h4' _ b4))⟩
  · unfold Polar.blend
    rw [e1, e2, e3, e4]
    simp only [bind, Except.bind, pure, Except.pure, num_real]
    rw [npInterps_ok _ _ p.cl (hp.len .cl) hp.ne, npInterps_ok _ _ o.cl (ho.len .cl) ho.ne,
      npInterps_ok _ _ p.cd (hp.len .cd) hp.ne, npInterps_ok _ _ o.cd (ho.len .cd) ho.ne,
      npInterps_ok _ _ p.cm (hp.len .cm) hp.ne, npInterps_ok _ _ o.cm (ho.len .cm) ho.ne]
    simp only [lerps_map]
    rfl

/-- **C56** The blended polar has the angles of either polar that both cover, in increasing order; its Reynolds number and, at each
angle, its coefficients are the weighted averages of those of the two polars. -/
theorem blend_spec (p o : Polar ℝ) (hp : p.WF) (ho : o.WF) (w : ℝ) : ∃ q, p.blend o w = .ok q ∧
    q.Re = (1 - w) * p.Re + w * o.Re ∧ q.alpha.Pairwise (· < ·) ∧
    (∀ a, a ∈ q.alpha ↔ (a ∈ p.alpha ∨ a ∈ o.alpha) ∧ p.Covers a ∧ o.Covers a) ∧
    (∀ c, (q.col c).length = q.alpha.length) ∧
    ∀ (c : Col) (i : ℕ) (a y : ℝ), q.alpha[i]? = some a → (q.col c)[i]? = some y →
      ∃ y1 y2, p.At c a y1 ∧ o.At c a y2 ∧ y = (1 - w) * y1 + w * y2 := by
  obtain ⟨lo, hi, hr, he⟩ := blend_eq p o hp ho w
  refine ⟨_, he, by ring, (npUnion_strict _ _).filter _, fun a => ?_, fun c => ?_, fun c i a y ha hy => ?_⟩
  · simp only [commonGrid, List.mem_filter, mem_npUnion, decide_eq_true_eq, hr]
  · cases c <;> simp [Polar.col]
  · have hmem : a ∈ commonGrid p o lo hi := List.mem_of_getElem? ha
    have hc : p.Covers a ∧ o.Covers a := by
      simp only [commonGrid, List.mem_filter, decide_eq_true_eq] at hmem
      exact (hr a).mp hmem.2
    refine ⟨_, _, hp.at_interp c hc.1, ho.at_interp c hc.2, ?_⟩
    cases c <;>
    · simp only [Polar.col, List.getElem?_map, ha, Option.map_some, Option.some.injEq] at hy ⊢
      rw [← hy]
      ring

/-- **C56** With a weight between 0 and 1 the blended coefficients lie between those of the two polars. -/
theorem blend_between (p o q : Polar ℝ) (hp : p.WF) (ho : o.WF) (w : ℝ) (h0 : 0 ≤ w) (h1 : w ≤ 1) (h : p.blend o w = .ok q)
    (c : Col) (i : ℕ) (a y y1 y2 : ℝ) (ha : q.alpha[i]? = some a) (hy : (q.col c)[i]? = some y)
    (hy1 : p.At c a y1) (hy2 : o.At c a y2) : min y1 y2 ≤ y ∧ y ≤ max y1 y2 := by
  obtain ⟨q', he, _, _, _, _, hv⟩ := blend_spec p o hp ho w
  obtain rfl : q = q' := by rw [h] at he; exact Except.ok.inj he
  obtain ⟨z1, z2, hz1, hz2, rfl⟩ := hv c i a y ha hy
  obtain rfl := hp.at_unique hz1 hy1
  obtain rfl := ho.at_unique hz2 hy2
  constructor
  · nlinarith [min_le_left z1 z2, min_le_right z1 z2]
  · nlinarith [le_max_left z1 z2, le_max_right z1 z2]

/-- **C56** Weight 0 reproduces the first polar and weight 1 the second, at the angles of the result. -/
theorem blend_ends (p o q : Polar ℝ) (hp : p.WF) (ho : o.WF) (c : Col) (i : ℕ) (a y : ℝ)
    (ha : q.alpha[i]? = some a) (hy : (q.col c)[i]? = some y) :
    (p.blend o 0 = .ok q → p.At c a y) ∧ (p.blend o 1 = .ok q → o.At c a y) := by
  constructor
  · intro h
    obtain ⟨q', he, _, _, _, _, hv⟩ := blend_spec p o hp ho 0
    obtain rfl : q = q' := by rw [h] at he; exact Except.ok.inj he
    obtain ⟨z1, z2, hz1, hz2, rfl⟩ := hv c i a y ha hy
    simpa using hz1
  · intro h
    obtain ⟨q', he, _, _, _, _, hv⟩ := blend_spec p o hp ho 1
    obtain rfl : q = q' := by rw [h] at he; exact Except.ok.inj he
    obtain ⟨z1, z2, hz1, hz2, rfl⟩ := hv c i a y ha hy
    simpa using hz2

/-- **C56** Swapping the polars and complementing the weight gives the same polar. -/
theorem blend_swap (p o : Polar ℝ) (hp : p.WF) (ho : o.WF) (w : ℝ) : p.blend o w = o.blend p (1 - w) := by
  obtain ⟨lo, hi, hr, he⟩ := blend_eq p o hp ho w
  obtain ⟨lo', hi', hr', he'⟩ := blend_eq o p ho hp (1 - w)
  have hg : commonGrid p o lo hi = commonGrid o p lo' hi' := by
    refine strict_ext ((npUnion_strict _ _).filter _) ((npUnion_strict _ _).filter _) fun x => ?_
    simp only [commonGrid, List.mem_filter, mem_npUnion, decide_eq_true_eq, hr, hr']
    tauto
  rw [he, he', hg]
  congr 2
  · ring
  · exact List.map_congr_left fun x _ => by ring
  · exact List.map_congr_left fun x _ => by ring
  · exact List.map_congr_left fun x _ => by ring

/-- A polar from -10 to 10 degrees. -/
def widePolar : Polar ℝ := ⟨1, [-10, 0, 10], [-1, 0, 1], [2, 1, 2], [0, 0, 0]⟩
/-- A polar from -5 to 5 degrees. -/
def narrowPolar : Polar ℝ := ⟨2, [-5, 5], [-1, 1], [3, 3], [1, 1]⟩

theorem widePolar_wf : widePolar.WF :=
  ⟨by simp [widePolar], by simp [widePolar], by intro c; cases c <;> rfl⟩

theorem narrowPolar_wf : narrowPolar.WF :=
  ⟨by simp [narrowPolar], by simp [narrowPolar], by intro c; cases c <;> rfl⟩

theorem wide_covers : widePolar.Covers 5 ∧ narrowPolar.Covers 5 :=
  ⟨⟨⟨0, by simp [widePolar], by norm_num⟩, ⟨10, by simp [widePolar], by norm_num⟩⟩,
    ⟨⟨-5, by simp [narrowPolar], by norm_num⟩, ⟨5, by simp [narrowPolar], le_refl _⟩⟩⟩

/-- The hypotheses of `blend_spec` are met by two different tables, and the blend has a row. -/
example : ∃ q, widePolar.blend narrowPolar (1 / 2) = .ok q ∧ (5 : ℝ) ∈ q.alpha ∧ q.Re = 3 / 2 := by
  obtain ⟨q, h1, h2, _, h4, _, _⟩ := blend_spec widePolar narrowPolar widePolar_wf narrowPolar_wf (1 / 2)
  refine ⟨q, h1, (h4 5).mpr ⟨.inr (by simp [narrowPolar]), wide_covers⟩, ?_⟩
  rw [h2]; norm_num [widePolar, narrowPolar]

/-- Weight 0 does not return the polar itself when the ranges differ (the docstring says it does). -/
theorem blend_zero_not_self : ∃ p o : Polar ℝ, p.WF ∧ o.WF ∧ p.blend o 0 ≠ .ok p := by
  refine ⟨widePolar, narrowPolar, widePolar_wf, narrowPolar_wf, fun h => ?_⟩
  obtain ⟨q, h1, _, _, h4, _, _⟩ := blend_spec widePolar narrowPolar widePolar_wf narrowPolar_wf 0
  rw [h] at h1
  obtain rfl := Except.ok.inj h1
  obtain ⟨_, _, ⟨a, ha, hle⟩, _⟩ := (h4 (-10)).mp (by simp [widePolar])
  simp [narrowPolar] at ha
  rcases ha with rfl | rfl <;> norm_num at hle

/-! ## `Airfoil.getPolar` -/

theorem searchsorted_eq (l : List ℝ) (hs : l.Pairwise (· < ·)) (x : ℝ) (i : ℕ) (a b : ℝ) (ha : l[i]? = some a)
    (hb : l[i + 1]? = some b) (h1 : a < x) (h2 : x ≤ b) : searchsorted l x = i + 1 := by
  unfold searchsorted
  induction l generalizing i with
  | nil => simp at ha
  | cons c l ih =>
    have hc := (List.pairwise_cons.mp hs).1
    cases i with
    | zero =>
      obtain rfl : c = a := by simpa using ha
      cases l with
      | nil => simp at hb
      | cons d l =>
        obtain rfl : d = b := by simpa using hb
        simp [h1, h2]
    | succ i =>
      have ha' : l[i]? = some a := by simpa using ha
      have hca : c < x := lt_trans (hc a (List.mem_of_getElem? ha')) h1
      have := ih (List.pairwise_cons.mp hs).2 i ha' (by simpa using hb)
      simp only [List.takeWhile_cons, hca, decide_true, if_true, List.length_cons]
      rw [this]

/-- An `Airfoil` with proper polars at distinct, increasing Reynolds numbers. -/
structure AfSet.WF (af : AfSet ℝ) : Prop where
  ne : af.polars ≠ []
  inc : (af.polars.map Polar.Re).Pairwise (· < ·)
  wf : ∀ p ∈ af.polars, p.WF

theorem getPolar_inside (af : AfSet ℝ) (h : af.WF) (Re : ℝ) (i : ℕ) (a b : Polar ℝ) (ha : af.polars[i]? = some a)
    (hb : af.polars[i + 1]? = some b) (h1 : a.Re < Re) (h2 : Re ≤ b.Re) (h3 : i + 2 < af.polars.length ∨ Re < b.Re) :
    af.getPolar Re = a.blend b ((Re - a.Re) / (b.Re - a.Re)) := by
  have hlt : ∀ (m n : ℕ) (p q : Polar ℝ), af.polars[m]? = some p → af.polars[n]? = some q → m < n → p.Re < q.Re := by
    intro m n p q hm hn hmn
    obtain ⟨hm', hm⟩ := List.getElem?_eq_some_iff.mp hm
    obtain ⟨hn', hn⟩ := List.getElem?_eq_some_iff.mp hn
    have := List.pairwise_iff_getElem.mp h.inc m n (by simpa using hm') (by simpa using hn') hmn
    simpa [hm, hn] using this
  have hss := searchsorted_eq (af.polars.map Polar.Re) h.inc Re i a.Re b.Re (by simp [ha]) (by simp [hb]) h1 h2
  obtain ⟨p0, hp0⟩ : ∃ p0, af.polars[0]? = some p0 := by
    cases hl : af.polars with
    | nil => exact absurd hl h.ne
    | cons p l => exact ⟨p, rfl⟩
  obtain ⟨p1, hp1⟩ : ∃ p1, af.polars.getLast? = some p1 := by
    cases hl : af.polars.getLast? with
    | none => rw [List.getLast?_eq_none_iff] at hl; exact absurd hl h.ne
    | some p => exact ⟨p, rfl⟩
  have hf : pyFirst af.polars = .ok p0 := by
    cases hl : af.polars with
    | nil => exact absurd hl h.ne
    | cons p l => rw [hl] at hp0; simpa [pyFirst] using hp0
  have hl : pyLast af.polars = .ok p1 := by simp [pyLast, hp1]
  have hR0 : ¬ Re ≤ p0.Re := by
    rcases Nat.eq_zero_or_pos i with rfl | hi
    · rw [hp0] at ha; injection ha with ha; subst ha; exact not_le.mpr h1
    · exact not_le.mpr (lt_trans (hlt 0 i _ _ hp0 ha hi) h1)
  have hR1 : ¬ p1.Re ≤ Re := by
    rw [List.getLast?_eq_getElem?] at hp1
    have hlen : i + 1 < af.polars.length := (List.getElem?_eq_some_iff.mp hb).1
    rcases Nat.lt_or_ge (i + 2) af.polars.length with hi | hi
    · have := hlt (i + 1) (af.polars.length - 1) _ _ hb hp1 (by omega)
      exact not_le.mpr (lt_of_le_of_lt h2 this)
    · have e : af.polars.length - 1 = i + 1 := by omega
      rw [e, hb] at hp1
      injection hp1 with hp1
      subst hp1
      rcases h3 with h3 | h3
      · omega
      · exact not_le.mpr h3
  unfold AfSet.getPolar
  rw [hf, hl]
  simp only [bind, Except.bind, if_neg hR0, if_neg hR1, hss, Nat.add_sub_cancel, ha, hb]

/-- **C57** `getPolar` returns the first polar at and below its Reynolds number, the last at and above its Reynolds number, and
between two neighbours their blend with a weight strictly between 0 and 1, whose Reynolds number is the requested one. -/
theorem getPolar_spec (af : AfSet ℝ) (h : af.WF) (Re : ℝ) :
    (∀ p, af.polars.head? = some p → Re ≤ p.Re → af.getPolar Re = .ok p) ∧
    (∀ p, af.polars.getLast? = some p → p.Re ≤ Re → af.getPolar Re = .ok p) ∧
    ∀ (i : ℕ) (a b : Polar ℝ), af.polars[i]? = some a → af.polars[i + 1]? = some b → a.Re < Re → Re < b.Re →
      ∃ (w : ℝ) (q : Polar ℝ), 0 < w ∧ w < 1 ∧ af.getPolar Re = .ok q ∧ a.blend b w = .ok q ∧ q.Re = Re := by
  refine ⟨fun p hp hR => ?_, fun p hp hR => ?_, fun i a b ha hb h1 h2 => ?_⟩
  · unfold AfSet.getPolar
    cases hl : af.polars with
    | nil => exact absurd hl h.ne
    | cons p' l =>
      rw [hl] at hp
      obtain rfl : p' = p := by simpa using hp
      have : ∃ p1, pyLast (p' :: l) = .ok p1 := by
        unfold pyLast
        cases hh : (p' :: l).getLast? with
        | none => simp at hh
        | some q => exact ⟨q, rfl⟩
      obtain ⟨p1, hp1⟩ := this
      simp [pyFirst, hp1, bind, Except.bind, hR, pure, Except.pure]
  · unfold AfSet.getPolar
    cases hl : af.polars with
    | nil => exact absurd hl h.ne
    | cons p' l =>
      rw [hl] at hp
      have hp1 : pyLast (p' :: l) = .ok p := by simp [pyLast, hp]
      simp only [pyFirst, hp1, bind, Except.bind, pure, Except.pure]
      by_cases h0 : Re ≤ p'.Re
      · -- then there is only one polar
        have hle : p'.Re ≤ p.Re := by
          have hmem : p ∈ p' :: l := List.mem_of_getLast? hp
          rcases List.mem_cons.mp hmem with rfl | hmem
          · exact le_refl _
          · have := h.inc
            rw [hl, List.map_cons] at this
            exact ((List.pairwise_cons.mp this).1 p.Re (List.mem_map_of_mem hmem)).le
        have hpp : p' = p := by
          have hmem : p ∈ p' :: l := List.mem_of_getLast? hp
          rcases List.mem_cons.mp hmem with rfl | hmem
          · rfl
          · have := h.inc
            rw [hl, List.map_cons] at this
            have := (List.pairwise_cons.mp this).1 p.Re (List.mem_map_of_mem hmem)
            linarith
        rw [if_pos h0, hpp]
      · rw [if_neg h0, if_pos hR]
  · have hab : 0 < b.Re - a.Re := by linarith
    have he := getPolar_inside af h Re i a b ha hb h1 h2.le (.inr h2)
    obtain ⟨q, hq, hqR, _⟩ := blend_spec a b (h.wf a (List.mem_of_getElem? ha)) (h.wf b (List.mem_of_getElem? hb))
      ((Re - a.Re) / (b.Re - a.Re))
    refine ⟨_, q, div_pos (by linarith) hab, (div_lt_one hab).mpr (by linarith), by rw [he, hq], hq, ?_⟩
    rw [hqR]
    have := hab.ne'
    field_simp
    ring

/-- **C57** At the Reynolds number of a stored inner polar, `getPolar` gives rows of that polar's curves (partial: it is not the
stored polar itself, see `getPolar_stored_false`). -/
theorem getPolar_stored_partial (af : AfSet ℝ) (h : af.WF) (i : ℕ) (b : Polar ℝ) (hb : af.polars[i]? = some b) :
    ∃ q, af.getPolar b.Re = .ok q ∧ q.Re = b.Re ∧
      ∀ (c : Col) (j : ℕ) (a y : ℝ), q.alpha[j]? = some a → (q.col c)[j]? = some y → b.At c a y := by
  have hbmem := List.mem_of_getElem? hb
  have hself : ∀ (c : Col) (j : ℕ) (a y : ℝ), b.alpha[j]? = some a → (b.col c)[j]? = some y → b.At c a y := by
    intro c j a y ha hy
    left
    refine List.mem_of_getElem? (i := j) ?_
    rw [List.getElem?_zip_eq_some]
    exact ⟨ha, hy⟩
  cases i with
  | zero =>
    refine ⟨b, (getPolar_spec af h b.Re).1 b (by rw [List.head?_eq_getElem?]; exact hb) (le_refl _), rfl, hself⟩
  | succ i =>
    have hlen : i + 1 < af.polars.length := (List.getElem?_eq_some_iff.mp hb).1
    rcases Nat.lt_or_ge (i + 2) af.polars.length with hi | hi
    · obtain ⟨a, ha⟩ : ∃ a, af.polars[i]? = some a := ⟨_, List.getElem?_eq_getElem (by omega)⟩
      have hRe : a.Re < b.Re := by
        obtain ⟨ha1, ha2⟩ := List.getElem?_eq_some_iff.mp ha
        obtain ⟨hb1, hb2⟩ := List.getElem?_eq_some_iff.mp hb
        have := List.pairwise_iff_getElem.mp h.inc i (i + 1) (by simpa using ha1) (by simpa using hb1) (by omega)
        simpa [ha2, hb2] using this
      have he := getPolar_inside af h b.Re i a b ha hb hRe (le_refl _) (.inl hi)
      rw [div_self (by linarith)] at he
      have hwa := h.wf a (List.mem_of_getElem? ha)
      have hwb := h.wf b hbmem
      obtain ⟨q, hq, hqR, _⟩ := blend_spec a b hwa hwb 1
      refine ⟨q, by rw [he, hq], by rw [hqR]; ring, fun c j x y hx hy => ?_⟩
      exact (blend_ends a b q hwa hwb c j x y hx hy).2 hq
    · have hlast : af.polars.getLast? = some b := by
        rw [List.getLast?_eq_getElem?, show af.polars.length - 1 = i + 1 by omega]
        exact hb
      exact ⟨b, (getPolar_spec af h b.Re).2.1 b hlast (le_refl _), rfl, hself⟩

/-- Three polars; the first covers less than the second. -/
def threePolars : AfSet ℝ := ⟨[{ narrowPolar with Re := 0 }, widePolar, { widePolar with Re := 2 }]⟩

theorem threePolars_wf : threePolars.WF := by
  refine ⟨by simp [threePolars], by simp [threePolars, widePolar], ?_⟩
  intro p hp
  simp only [threePolars, List.mem_cons, List.not_mem_nil, or_false] at hp
  rcases hp with rfl | rfl | rfl
  · exact ⟨narrowPolar_wf.ne, narrowPolar_wf.inc, by intro c; cases c <;> rfl⟩
  · exact widePolar_wf
  · exact ⟨widePolar_wf.ne, widePolar_wf.inc, by intro c; cases c <;> rfl⟩

/-- The last case of `getPolar_spec` occurs. -/
example : ∃ w q, 0 < w ∧ w < 1 ∧ threePolars.getPolar (1 / 2) = .ok q ∧
    Polar.blend { narrowPolar with Re := 0 } widePolar w = .ok q ∧ q.Re = 1 / 2 :=
  (getPolar_spec threePolars threePolars_wf (1 / 2)).2.2 0 _ _ rfl rfl (by norm_num) (by norm_num [widePolar])

/-- **C57** The polar returned at a stored Reynolds number need not be the stored polar: the range is cut to that of the
neighbour below. -/
theorem getPolar_stored_false : ∃ (af : AfSet ℝ) (b : Polar ℝ), af.WF ∧ b ∈ af.polars ∧ af.getPolar b.Re ≠ .ok b := by
  refine ⟨threePolars, widePolar, threePolars_wf, by simp [threePolars], fun h => ?_⟩
  have he := getPolar_inside threePolars threePolars_wf widePolar.Re 0 { narrowPolar with Re := 0 } widePolar rfl rfl
    (by norm_num [widePolar]) (le_refl _) (.inl (by simp [threePolars]))
  have hn : Polar.WF { narrowPolar with Re := 0 } := threePolars_wf.wf _ (by simp [threePolars])
  obtain ⟨q, hq, _, _, h4, _, _⟩ := blend_spec { narrowPolar with Re := 0 } widePolar hn widePolar_wf
    ((widePolar.Re - 0) / (widePolar.Re - 0))
  rw [h] at he
  have he' : Except.ok (ε := PyErr) widePolar = .ok q := by rw [he]; exact hq
  obtain rfl := Except.ok.inj he'
  obtain ⟨_, ⟨⟨a, ha, hle⟩, _⟩, _⟩ := (h4 (-10)).mp (by simp [widePolar])
  simp [narrowPolar] at ha
  rcases ha with rfl | rfl <;> norm_num at hle

/-! ## `Airfoil.__init__` -/

instance reTotal : Std.Total (fun p q : Polar ℝ => p.Re ≤ q.Re) := ⟨fun p q => le_total p.Re q.Re⟩
instance reTrans : IsTrans (Polar ℝ) (fun p q : Polar ℝ => p.Re ≤ q.Re) := ⟨fun _ _ _ h h' => le_trans h h'⟩

/-- **C58** The constructor keeps exactly the given polars, in ascending order of Reynolds number. -/
theorem airfoil_sorted (ps : List (Polar ℝ)) (hne : ps ≠ []) : ∃ af, AfSet.build ps = .ok af ∧ af.polars.Perm ps ∧
    (af.polars.map Polar.Re).Pairwise (· ≤ ·) := by
  cases ps with
  | nil => exact absurd rfl hne
  | cons p l =>
    refine ⟨_, rfl, List.perm_insertionSort _ _, ?_⟩
    rw [List.pairwise_map]
    exact List.pairwise_insertionSort (fun p q : Polar ℝ => p.Re ≤ q.Re) (p :: l)

/-- **C58** For distinct Reynolds numbers the order in which the polars are given does not matter. -/
theorem airfoil_perm (ps qs : List (Polar ℝ)) (h : ps.Perm qs) (hd : ps.Pairwise (fun p q => p.Re ≠ q.Re)) :
    AfSet.build ps = AfSet.build qs := by
  cases ps with
  | nil => rw [List.Perm.nil_eq h]
  | cons p l =>
    cases qs with
    | nil => exact absurd h.symm (by simp)
    | cons q m =>
      simp only [AfSet.build]
      congr 2
      have h1 := List.pairwise_insertionSort (fun p q : Polar ℝ => p.Re ≤ q.Re) (p :: l)
      have h2 := List.pairwise_insertionSort (fun p q : Polar ℝ => p.Re ≤ q.Re) (q :: m)
      have hp := (List.perm_insertionSort (fun p q : Polar ℝ => p.Re ≤ q.Re) (p :: l)).trans
        (h.trans (List.perm_insertionSort (fun p q : Polar ℝ => p.Re ≤ q.Re) (q :: m)).symm)
      refine List.Perm.eq_of_pairwise (le := fun p q : Polar ℝ => p.Re ≤ q.Re) ?_ h1 h2 hp
      intro a b ha hb hab hba
      rw [List.mem_insertionSort] at ha hb
      have hb' : b ∈ p :: l := h.mem_iff.mpr hb
      by_contra hne
      have : Std.Symm (fun p q : Polar ℝ => p.Re ≠ q.Re) := ⟨fun _ _ h => Ne.symm h⟩
      exact hd.forall ha hb' hne (le_antisymm hab hba)

example : AfSet.build [widePolar, narrowPolar] = AfSet.build [narrowPolar, widePolar] :=
  airfoil_perm _ _ (List.Perm.swap _ _ _) (by norm_num [widePolar, narrowPolar])

/-! ## `interpToCommonAlpha`, `createDataGrid` -/

theorem mapM_ok {β γ : Type} (f : β → Except PyErr γ) (g : β → γ) (l : List β) (h : ∀ x ∈ l, f x = .ok (g x)) :
    l.mapM f = .ok (l.map g) := by
  induction l with
  | nil => rfl
  | cons a l ih =>
    rw [List.mapM_cons, h a (by simp), ih fun x hx => h x (List.mem_cons_of_mem _ hx)]
    rfl

/-- A polar interpolated to a grid. -/
noncomputable def regrid (grid : List ℝ) (p : Polar ℝ) : Polar ℝ :=
  ⟨p.Re, grid, grid.map (interpVal p.alpha p.cl), grid.map (interpVal p.alpha p.cd), grid.map (interpVal p.alpha p.cm)⟩

theorem onGrid_ok (p : Polar ℝ) (hp : p.WF) (grid : List ℝ) : p.onGrid grid = .ok (regrid grid p) := by
  unfold Polar.onGrid
  rw [npInterps_ok _ _ p.cl (hp.len .cl) hp.ne, npInterps_ok _ _ p.cd (hp.len .cd) hp.ne,
    npInterps_ok _ _ p.cm (hp.len .cm) hp.ne]
  rfl

/-- The grid chosen by `interpToCommonAlpha`. -/
noncomputable def chosenGrid (af : AfSet ℝ) : Option (List ℝ) → List ℝ
  | some a => a
  | none => af.polars.foldl (fun acc p => npUnion acc p.alpha) []

theorem build_sorted (ps : List (Polar ℝ)) (hne : ps ≠ []) (hs : (ps.map Polar.Re).Pairwise (· ≤ ·)) :
    AfSet.build ps = .ok ⟨ps⟩ := by
  cases ps with
  | nil => exact absurd rfl hne
  | cons p l =>
    simp only [AfSet.build]
    rw [List.Pairwise.insertionSort_eq]
    rw [List.pairwise_map] at hs
    exact hs

theorem interpToCommonAlpha_ok (af : AfSet ℝ) (hne : af.polars ≠ []) (hs : (af.polars.map Polar.Re).Pairwise (· ≤ ·))
    (hw : ∀ p ∈ af.polars, p.WF) (alpha : Option (List ℝ)) :
    af.interpToCommonAlpha alpha = .ok ⟨af.polars.map (regrid (chosenGrid af alpha))⟩ := by
  have hb := build_sorted (af.polars.map (regrid (chosenGrid af alpha))) (by simpa using hne)
    (by rw [List.map_map]; exact hs)
  have hm := mapM_ok (fun p => p.onGrid (chosenGrid af alpha)) (regrid (chosenGrid af alpha)) af.polars
    fun p hp => onGrid_ok p (hw p hp) _
  have he : af.interpToCommonAlpha alpha =
      ((af.polars.mapM fun p => p.onGrid (chosenGrid af alpha)) >>= fun l => AfSet.build l) := by
    cases alpha <;> rfl
  rw [he, hm]
  exact hb

theorem mem_foldl_union (l : List (Polar ℝ)) (acc : List ℝ) (x : ℝ) :
    x ∈ l.foldl (fun acc p => npUnion acc p.alpha) acc ↔ x ∈ acc ∨ ∃ p ∈ l, x ∈ p.alpha := by
  induction l generalizing acc with
  | nil => simp
  | cons p l ih =>
    rw [List.foldl_cons, ih, mem_npUnion]
    simp only [List.mem_cons, exists_eq_or_imp]
    tauto

theorem foldl_union_strict (l : List (Polar ℝ)) (acc : List ℝ) (h : acc.Pairwise (· < ·)) :
    (l.foldl (fun acc p => npUnion acc p.alpha) acc).Pairwise (· < ·) := by
  induction l generalizing acc with
  | nil => exact h
  | cons p l ih => exact ih _ (npUnion_strict _ _)

/-- How a table is continued outside its range: by its end values. -/
def Polar.AtClamped (p : Polar ℝ) (c : Col) (x y : ℝ) : Prop :=
  p.At c x y ∨ ((∀ a ∈ p.alpha, x < a) ∧ (p.col c).head? = some y) ∨ ((∀ a ∈ p.alpha, a < x) ∧ (p.col c).getLast? = some y)

theorem interpFrom_above (x : ℝ) : ∀ (rest : List (ℝ × ℝ)) (p : ℝ × ℝ), (∀ q ∈ rest, q.1 < x) →
    (p :: rest).getLast?.map Prod.snd = some (interpFrom x p rest)
  | [], p, _ => rfl
  | q :: rest, p, h => by
    simp only [interpFrom]
    rw [if_neg (not_lt.mpr (h q (by simp)).le), ← interpFrom_above x rest q fun r hr => h r (by simp [hr])]
    rw [List.getLast?_cons_cons]

theorem interpVal_clamped (p : Polar ℝ) (hp : p.WF) (c : Col) (x : ℝ) :
    p.AtClamped c x (interpVal p.alpha (p.col c) x) := by
  by_cases h1 : ∃ a ∈ p.alpha, a ≤ x
  · by_cases h2 : ∃ a ∈ p.alpha, x ≤ a
    · exact .inl (hp.at_interp c ⟨h1, h2⟩)
    · push Not at h2
      refine .inr (.inr ⟨h2, ?_⟩)
      have hlen := hp.len c
      unfold interpVal
      cases ha : p.alpha with
      | nil => exact absurd ha hp.ne
      | cons a l =>
        cases hb : p.col c with
        | nil => rw [ha, hb] at hlen; simp at hlen
        | cons b m =>
          rw [ha, hb] at hlen
          rw [ha] at h2
          simp only [List.zip_cons_cons]
          rw [if_neg (not_lt.mpr (h2 a (by simp)).le), ← interpFrom_above]
          · rw [← List.zip_cons_cons]
            have : (b :: m) = ((a :: l).zip (b :: m)).map Prod.snd := by
              rw [List.map_snd_zip (by omega)]
            conv_lhs => rw [this]
            rw [List.getLast?_map]
          · intro q hq
            exact h2 q.1 (List.mem_cons_of_mem _ (List.of_mem_zip hq).1)
  · push Not at h1
    refine .inr (.inl ⟨h1, ?_⟩)
    have hlen := hp.len c
    unfold interpVal
    cases ha : p.alpha with
    | nil => exact absurd ha hp.ne
    | cons a l =>
      cases hb : p.col c with
      | nil => rw [ha, hb] at hlen; simp at hlen
      | cons b m =>
        rw [ha] at h1
        simp [h1 a (by simp)]

/-- **C68** `interpToCommonAlpha` keeps number and Reynolds numbers of the polars and puts all of them on one grid: the given one,
or the increasing union of all angles.  Each value is that of the original polar (continued by its end values). -/
theorem interpToCommonAlpha_spec (af : AfSet ℝ) (hne : af.polars ≠ []) (hs : (af.polars.map Polar.Re).Pairwise (· ≤ ·))
    (hw : ∀ p ∈ af.polars, p.WF) (alpha : Option (List ℝ)) : ∃ (af' : AfSet ℝ) (grid : List ℝ),
    af.interpToCommonAlpha alpha = .ok af' ∧ af'.polars.map Polar.Re = af.polars.map Polar.Re ∧
    (∀ a, alpha = some a → grid = a) ∧
    (alpha = none → grid.Pairwise (· < ·) ∧ ∀ x, x ∈ grid ↔ ∃ p ∈ af.polars, x ∈ p.alpha) ∧
    ∀ (i : ℕ) (p p' : Polar ℝ), af.polars[i]? = some p → af'.polars[i]? = some p' → p'.alpha = grid ∧
      ∀ c, (p'.col c).length = grid.length ∧
        ∀ (j : ℕ) (x y : ℝ), grid[j]? = some x → (p'.col c)[j]? = some y → p.AtClamped c x y := by
  refine ⟨_, chosenGrid af alpha, interpToCommonAlpha_ok af hne hs hw alpha, ?_, ?_, ?_, ?_⟩
  · rw [List.map_map]; rfl
  · rintro a rfl; rfl
  · rintro rfl
    exact ⟨foldl_union_strict _ _ List.Pairwise.nil, fun x => by simp [chosenGrid, mem_foldl_union]⟩
  · intro i p p' hp hp'
    simp only [List.getElem?_map, hp, Option.map_some, Option.some.injEq] at hp'
    subst hp'
    refine ⟨rfl, fun c => ⟨by cases c <;> simp [regrid, Polar.col], fun j x y hx hy => ?_⟩⟩
    have := interpVal_clamped p (hw p (List.mem_of_getElem? hp)) c x
    have hxy : y = interpVal p.alpha (p.col c) x := by
      cases c <;>
      · simp only [regrid, Polar.col, List.getElem?_map, hx, Option.map_some, Option.some.injEq] at hy
        exact hy.symm
    rw [hxy]
    exact this

/-- **C68** `createDataGrid` returns the common grid, the Reynolds numbers, and for each coefficient the matrix whose column `j` is the
column of polar `j` of `interpToCommonAlpha()`. -/
theorem createDataGrid_spec (af : AfSet ℝ) (hne : af.polars ≠ []) (hs : (af.polars.map Polar.Re).Pairwise (· ≤ ·))
    (hw : ∀ p ∈ af.polars, p.WF) : ∃ (af' : AfSet ℝ) (g : DataGrid ℝ),
    af.interpToCommonAlpha none = .ok af' ∧ af.createDataGrid = .ok g ∧ g.Re = af.polars.map Polar.Re ∧
    (∀ M ∈ [g.cl, g.cd, g.cm], M.rows = g.alpha.length ∧ M.cols = g.Re.length) ∧
    ∀ (j : ℕ) (p : Polar ℝ), af'.polars[j]? = some p → p.alpha = g.alpha ∧
      ∀ (i : ℕ) (x : ℝ), (p.cl[i]? = some x → g.cl.get i j = x) ∧ (p.cd[i]? = some x → g.cd.get i j = x) ∧
        (p.cm[i]? = some x → g.cm.get i j = x) := by
  have hok := interpToCommonAlpha_ok af hne hs hw none
  obtain ⟨p0, l, hl⟩ : ∃ p l, af.polars = p :: l := by
    cases h : af.polars with
    | nil => exact absurd h hne
    | cons p l => exact ⟨p, l, rfl⟩
  have hf : pyFirst (af.polars.map (regrid (chosenGrid af none))) = .ok (regrid (chosenGrid af none) p0) := by
    rw [hl]; rfl
  refine ⟨_, (⟨chosenGrid af none, af.polars.map Polar.Re,
      ⟨(chosenGrid af none).length, af.polars.length, fun i j =>
        (((af.polars.map (regrid (chosenGrid af none)))[j]?).bind (fun p => p.cl[i]?)).getD 0⟩,
      ⟨(chosenGrid af none).length, af.polars.length, fun i j =>
        (((af.polars.map (regrid (chosenGrid af none)))[j]?).bind (fun p => p.cd[i]?)).getD 0⟩,
      ⟨(chosenGrid af none).length, af.polars.length, fun i j =>
        (((af.polars.map (regrid (chosenGrid af none)))[j]?).bind (fun p => p.cm[i]?)).getD 0⟩⟩ :
    DataGrid ℝ), hok, ?_, ?_, ?_, ?_⟩
  · unfold AfSet.createDataGrid
    rw [hok]
    simp only [bind, Except.bind, pure, Except.pure]
    rw [hf]
    simp only [List.map_map, List.length_map]
    rfl
  · rfl
  · intro M hM
    simp only [List.mem_cons, List.not_mem_nil, or_false] at hM
    rcases hM with rfl | rfl | rfl <;> simp
  · intro j p hp
    refine ⟨?_, fun i x => ?_⟩
    · simp only [List.getElem?_map, Option.map_eq_some_iff] at hp
      obtain ⟨q, _, rfl⟩ := hp
      rfl
    · refine ⟨fun hx => ?_, fun hx => ?_, fun hx => ?_⟩ <;> simp only [hp, Option.bind_some, hx, Option.getD_some]

/-- The hypotheses are met by two polars with different grids. -/
example : ∃ (af' : AfSet ℝ) (g : DataGrid ℝ), (⟨[widePolar, narrowPolar]⟩ : AfSet ℝ).interpToCommonAlpha none = .ok af' ∧
    (⟨[widePolar, narrowPolar]⟩ : AfSet ℝ).createDataGrid = .ok g ∧ g.Re = [1, 2] := by
  obtain ⟨af', g, h1, h2, h3, _⟩ := createDataGrid_spec ⟨[widePolar, narrowPolar]⟩ (by simp)
    (by norm_num [widePolar, narrowPolar]) (by
      intro p hp
      simp only [List.mem_cons, List.not_mem_nil, or_false] at hp
      rcases hp with rfl | rfl
      · exact widePolar_wf
      · exact narrowPolar_wf)
  exact ⟨af', g, h1, h2, by rw [h3]; rfl⟩

end Verif
