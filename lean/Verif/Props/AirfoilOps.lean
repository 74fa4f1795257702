import Verif.Props.Polars
import Verif.Props.Correction
import Verif.Props.MomentCurve
import Verif.Lemmas.AeroDyn

/-!
# Operations on a whole airfoil (C89, C90)

`Airfoil.correction3D` and `Airfoil.extrapolate` act polar by polar; `Airfoil.blend` blends at every Reynolds number of either
airfoil.
-/

namespace Verif

/-! ## Polar by polar -/

theorem correction3D_Re (fit : PolyFit ℝ) (p q : Polar ℝ) (x : Corr3D ℝ) (h : p.correction3D fit x = .ok q) : q.Re = p.Re := by
  unfold Polar.correction3D at h
  obtain ⟨c, -, h⟩ := bind_inv h
  obtain ⟨d, -, h⟩ := bind_inv h
  rw [← Except.ok.inj h]

theorem extrapolate_Re (p q : Polar ℝ) (cdmax : ℝ) (AR : Option ℝ) (cdmin : ℝ) (n : ℕ)
    (h : p.extrapolate cdmax AR cdmin n = .ok q) : q.Re = p.Re := by
  unfold Polar.extrapolate at h
  by_cases c0 : cdmin < 0
  · rw [if_pos c0] at h; cases h
  rw [if_neg c0] at h
  obtain ⟨_, -, h⟩ := bind_inv h
  obtain ⟨_, -, h⟩ := bind_inv h
  obtain ⟨_, -, h⟩ := bind_inv h
  obtain ⟨_, -, h⟩ := bind_inv h
  obtain ⟨_, -, h⟩ := bind_inv h
  obtain ⟨_, -, h⟩ := bind_inv h
  obtain ⟨_, -, h⟩ := bind_inv h
  obtain ⟨_, -, h⟩ := bind_inv h
  dsimp only at h
  split_ifs at h with c1 c2
  all_goals first
    | (obtain ⟨_, hh, -⟩ := bind_inv h; exact absurd hh (by rintro ⟨⟩))
    | (obtain ⟨_, -, h⟩ := bind_inv h
       obtain ⟨_, -, h⟩ := bind_inv h
       rw [← Except.ok.inj h])

theorem mapM_forall₂ {β γ : Type} (f : β → Except PyErr γ) (l : List β) (ys : List γ) :
    l.mapM f = .ok ys ↔ List.Forall₂ (fun a y => f a = .ok y) l ys := by
  rw [mapM_ok_iff, ← List.forall₂_eq_eq_eq, List.forall₂_map_left_iff, List.forall₂_map_right_iff]

/-- The first exception of a loop. -/
theorem mapM_error {β γ : Type} (f : β → Except PyErr γ) (l : List β) (e : PyErr) :
    l.mapM f = .error e ↔ ∃ (l₁ l₂ : List β) (a : β), l = l₁ ++ a :: l₂ ∧ (∀ b ∈ l₁, ∃ y, f b = .ok y) ∧ f a = .error e := by
  induction l with
  | nil => simp [pure, Except.pure]
  | cons a l ih =>
    rw [List.mapM_cons]
    cases hf : f a with
    | error e' =>
      constructor
      · intro h
        obtain rfl : e' = e := by simpa [bind, Except.bind] using h
        exact ⟨[], l, a, rfl, by simp, hf⟩
      · rintro ⟨l₁, l₂, b, h1, h2, h3⟩
        cases l₁ with
        | nil =>
          obtain ⟨rfl, -⟩ := List.cons.inj h1
          rw [hf] at h3
          simpa [bind, Except.bind] using h3
        | cons c l₁ =>
          obtain ⟨rfl, -⟩ := List.cons.inj h1
          obtain ⟨y, hy⟩ := h2 a (by simp)
          rw [hf] at hy; cases hy
    | ok y =>
      have he : (l.mapM f = .error e) ↔ ((Except.ok y >>= fun y => l.mapM f >>= fun ys => pure (y :: ys)) : Except PyErr (List γ)) = .error e := by
        simp only [bind, Except.bind]
        cases l.mapM f <;> simp [pure, Except.pure]
      rw [← he, ih]
      constructor
      · rintro ⟨l₁, l₂, b, rfl, h2, h3⟩
        refine ⟨a :: l₁, l₂, b, rfl, ?_, h3⟩
        intro b hb
        rcases List.mem_cons.mp hb with rfl | hb
        · exact ⟨y, hf⟩
        · exact h2 b hb
      · rintro ⟨l₁, l₂, b, h1, h2, h3⟩
        cases l₁ with
        | nil =>
          obtain ⟨rfl, -⟩ := List.cons.inj h1
          rw [hf] at h3; cases h3
        | cons c l₁ =>
          obtain ⟨rfl, rfl⟩ := List.cons.inj h1
          exact ⟨l₁, l₂, b, rfl, fun b hb => h2 b (by simp [hb]), h3⟩

theorem forall₂_Re {f : Polar ℝ → Except PyErr (Polar ℝ)} (hf : ∀ p q, f p = .ok q → q.Re = p.Re) {l ys : List (Polar ℝ)}
    (h : List.Forall₂ (fun a y => f a = .ok y) l ys) : ys.map Polar.Re = l.map Polar.Re := by
  induction h with
  | nil => rfl
  | cons h _ ih => simp [hf _ _ h, ih]

/-- Applying to every polar an operation that keeps the Reynolds number. -/
theorem each_polar (f : Polar ℝ → Except PyErr (Polar ℝ)) (hf : ∀ p q, f p = .ok q → q.Re = p.Re) (af : AfSet ℝ)
    (hne : af.polars ≠ []) (hs : (af.polars.map Polar.Re).Pairwise (· ≤ ·)) :
    (∀ af' : AfSet ℝ, (af.polars.mapM f >>= fun l => AfSet.build l) = .ok af' ↔
      List.Forall₂ (fun p q => f p = .ok q) af.polars af'.polars) ∧
    ∀ e, (af.polars.mapM f >>= fun l => AfSet.build l) = .error e ↔ ∃ (l₁ l₂ : List (Polar ℝ)) (p : Polar ℝ),
      af.polars = l₁ ++ p :: l₂ ∧ (∀ b ∈ l₁, ∃ q, f b = .ok q) ∧ f p = .error e := by
  have hb : ∀ ys, af.polars.mapM f = .ok ys → AfSet.build ys = .ok ⟨ys⟩ := by
    intro ys h
    have h2 := (mapM_forall₂ _ _ _).mp h
    refine build_sorted _ ?_ (by rw [forall₂_Re hf h2]; exact hs)
    rintro rfl
    exact hne (List.forall₂_nil_right_iff.mp h2)
  constructor
  · intro af'
    rw [← mapM_forall₂]
    constructor
    · intro h
      obtain ⟨ys, h1, h2⟩ := bind_inv h
      rw [hb ys h1] at h2
      rw [h1, ← Except.ok.inj h2]
    · intro h
      rw [h]
      exact hb _ h
  · intro e
    rw [← mapM_error]
    cases h : af.polars.mapM f with
    | error e' => simp [bind, Except.bind]
    | ok ys => simp [bind, Except.bind, hb ys h]

/-- **C89** `Airfoil.correction3D` corrects each polar with the given station and operating point, keeps their order and Reynolds
numbers, and raises the exception of the first polar that raises. -/
theorem airfoil_correction3D (fit : PolyFit ℝ) (af : AfSet ℝ) (hne : af.polars ≠ [])
    (hs : (af.polars.map Polar.Re).Pairwise (· ≤ ·)) (x : Corr3D ℝ) :
    (∀ af', af.correction3D fit x = .ok af' ↔ List.Forall₂ (fun p q => p.correction3D fit x = .ok q) af.polars af'.polars) ∧
    (∀ af', af.correction3D fit x = .ok af' → af'.polars.map Polar.Re = af.polars.map Polar.Re) ∧
    ∀ e, af.correction3D fit x = .error e ↔ ∃ (l₁ l₂ : List (Polar ℝ)) (p : Polar ℝ), af.polars = l₁ ++ p :: l₂ ∧
      (∀ b ∈ l₁, ∃ q, b.correction3D fit x = .ok q) ∧ p.correction3D fit x = .error e := by
  have hf : ∀ p q : Polar ℝ, p.correction3D fit x = .ok q → q.Re = p.Re := fun p q h => correction3D_Re fit p q x h
  obtain ⟨h1, h2⟩ := each_polar (fun p => p.correction3D fit x) hf af hne hs
  exact ⟨h1, fun af' h => forall₂_Re hf ((h1 af').mp h), h2⟩

/-- **C89** `Airfoil.extrapolate` extrapolates each polar with the given drag limits and aspect ratio and the default number of
angles, keeps their order and Reynolds numbers, and raises the exception of the first polar that raises. -/
theorem airfoil_extrapolate (af : AfSet ℝ) (hne : af.polars ≠ []) (hs : (af.polars.map Polar.Re).Pairwise (· ≤ ·))
    (cdmax : ℝ) (AR : Option ℝ) (cdmin : ℝ) :
    (∀ af', af.extrapolate cdmax AR cdmin = .ok af' ↔
      List.Forall₂ (fun p q => p.extrapolate cdmax AR cdmin 15 = .ok q) af.polars af'.polars) ∧
    (∀ af', af.extrapolate cdmax AR cdmin = .ok af' → af'.polars.map Polar.Re = af.polars.map Polar.Re) ∧
    ∀ e, af.extrapolate cdmax AR cdmin = .error e ↔ ∃ (l₁ l₂ : List (Polar ℝ)) (p : Polar ℝ), af.polars = l₁ ++ p :: l₂ ∧
      (∀ b ∈ l₁, ∃ q, b.extrapolate cdmax AR cdmin 15 = .ok q) ∧ p.extrapolate cdmax AR cdmin 15 = .error e := by
  have hf : ∀ p q : Polar ℝ, p.extrapolate cdmax AR cdmin 15 = .ok q → q.Re = p.Re :=
    fun p q h => extrapolate_Re p q cdmax AR cdmin 15 h
  obtain ⟨h1, h2⟩ := each_polar (fun p => p.extrapolate cdmax AR cdmin 15) hf af hne hs
  exact ⟨h1, fun af' h => forall₂_Re hf ((h1 af').mp h), h2⟩

/-- An airfoil of two polars can be extrapolated; each polar of the result starts at -180 degrees. -/
example : ∃ af' : AfSet ℝ, AfSet.extrapolate ⟨[cambered, cambered]⟩ 1 none (1 / 1000) = .ok af' ∧ af'.polars.length = 2 ∧
    ∀ q ∈ af'.polars, q.alpha.head? = some (-180) := by
  obtain ⟨q, h⟩ := cambered_ok
  refine ⟨⟨[q, q]⟩, ((airfoil_extrapolate ⟨[cambered, cambered]⟩ (by simp) (by simp) 1 none (1 / 1000)).1 _).mpr (.cons h (.cons h .nil)), rfl, ?_⟩
  intro q' hq
  obtain rfl : q' = q := by simpa using hq
  exact (extrapolate_keeps cambered q' cambered_wf 1 none (1 / 1000) 15 (by norm_num) h).2.1

/-- An airfoil of two different polars can be corrected. -/
example : ∃ af' : AfSet ℝ, AfSet.correction3D (fun _ => .ok (6, 0)) ⟨[widePolar, narrowPolar]⟩ ⟨1 / 2, 1 / 10, 7, 30, -5, 5⟩ = .ok af' ∧
    af'.polars.map Polar.Re = [1, 2] ∧ af'.polars.map Polar.alpha = [[-10, 0, 10], [-5, 5]] := by
  obtain ⟨q, _, h, _, h2, _⟩ := correction3D_spec (fun _ => .ok (6, 0)) widePolar widePolar_wf ⟨1 / 2, 1 / 10, 7, 30, -5, 5⟩ 6 0
    (by norm_num) rfl
  obtain ⟨r, _, h', _, h2', _⟩ := correction3D_spec (fun _ => .ok (6, 0)) narrowPolar narrowPolar_wf ⟨1 / 2, 1 / 10, 7, 30, -5, 5⟩ 6 0
    (by norm_num) rfl
  obtain ⟨e1, e2, -⟩ := airfoil_correction3D (fun _ => .ok (6, 0)) ⟨[widePolar, narrowPolar]⟩ (by simp)
    (by norm_num [widePolar, narrowPolar]) ⟨1 / 2, 1 / 10, 7, 30, -5, 5⟩
  have := (e1 ⟨[q, r]⟩).mpr (.cons h (.cons h' .nil))
  refine ⟨_, this, e2 _ this, ?_⟩
  simp [h2, h2', widePolar, narrowPolar]

/-! ## Blending at every Reynolds number -/

/-- The Reynolds number at which an airfoil has data for the requested one: the nearest within its range. -/
def AfSet.NearestRe (af : AfSet ℝ) (Re R : ℝ) : Prop :=
  ∃ lo hi : Polar ℝ, af.polars.head? = some lo ∧ af.polars.getLast? = some hi ∧ R = max lo.Re (min Re hi.Re)

theorem AfSet.NearestRe.inside {af : AfSet ℝ} {Re R : ℝ} (h : af.NearestRe Re R) {lo hi : Polar ℝ} (h1 : lo ∈ af.polars)
    (h2 : hi ∈ af.polars) (hs : (af.polars.map Polar.Re).Pairwise (· < ·)) (hl : lo.Re ≤ Re) (hh : Re ≤ hi.Re) : R = Re := by
  obtain ⟨l, u, e1, e2, rfl⟩ := h
  have hle : ∀ p ∈ af.polars, l.Re ≤ p.Re ∧ p.Re ≤ u.Re := by
    intro p hp
    have hs' := hs.imp (fun h => le_of_lt h)
    rw [List.pairwise_map] at hs'
    constructor
    · cases hc : af.polars with
      | nil => rw [hc] at hp; cases hp
      | cons a m =>
        rw [hc] at e1 hp hs'
        obtain rfl : a = l := by simpa using e1
        rcases List.mem_cons.mp hp with rfl | hp
        · exact le_refl _
        · exact (List.pairwise_cons.mp hs').1 p hp
    · obtain ⟨m, hm⟩ := List.getLast?_eq_some_iff.mp e2
      rw [hm] at hp hs'
      rcases List.mem_append.mp hp with hp | hp
      · exact (List.pairwise_append.mp hs').2.2 p hp u (by simp)
      · obtain rfl : p = u := by simpa using hp
        exact le_refl _
  rw [min_eq_left (hh.trans (hle hi h2).2), max_eq_right ((hle lo h1).1.trans hl)]

theorem AfSet.NearestRe.mono {af : AfSet ℝ} {x y R S : ℝ} (h : af.NearestRe x R) (h' : af.NearestRe y S) (hxy : x ≤ y) : R ≤ S := by
  obtain ⟨l, u, e1, e2, rfl⟩ := h
  obtain ⟨l', u', e1', e2', rfl⟩ := h'
  rw [e1] at e1'; rw [e2] at e2'
  obtain rfl := Option.some.inj e1'
  obtain rfl := Option.some.inj e2'
  exact max_le_max (le_refl _) (min_le_min hxy (le_refl _))

/-- The blend of two polars that overlap is again a proper table, and keeps the angles both cover. -/
theorem blend_wf (p o q : Polar ℝ) (hp : p.WF) (ho : o.WF) (w x : ℝ) (h : p.blend o w = .ok q) (h1 : p.Covers x) (h2 : o.Covers x) :
    q.WF ∧ q.Covers x := by
  obtain ⟨q', he, _, hinc, hmem, hlen, _⟩ := blend_spec p o hp ho w
  obtain rfl : q = q' := by rw [h] at he; exact Except.ok.inj he
  have hq : q.Covers x := by
    obtain ⟨m1, e1, a1, b1⟩ := npMin_spec p.alpha hp.ne
    obtain ⟨m2, e2, a2, b2⟩ := npMin_spec o.alpha ho.ne
    obtain ⟨m3, e3, a3, b3⟩ := npMax_spec p.alpha hp.ne
    obtain ⟨m4, e4, a4, b4⟩ := npMax_spec o.alpha ho.ne
    obtain ⟨⟨u1, hu1, l1⟩, ⟨u2, hu2, l2⟩⟩ := h1
    obtain ⟨⟨u3, hu3, l3⟩, ⟨u4, hu4, l4⟩⟩ := h2
    have c1 := b1 _ hu1
    have c2 := b3 _ hu2
    have c3 := b2 _ hu3
    have c4 := b4 _ hu4
    constructor
    · rcases le_total m1 m2 with hm | hm
      · exact ⟨m2, (hmem m2).mpr ⟨.inr a2, ⟨⟨m1, a1, hm⟩, ⟨m3, a3, by linarith⟩⟩, ⟨⟨m2, a2, le_refl _⟩, ⟨m4, a4, by linarith⟩⟩⟩,
          by linarith⟩
      · exact ⟨m1, (hmem m1).mpr ⟨.inl a1, ⟨⟨m1, a1, le_refl _⟩, ⟨m3, a3, by linarith⟩⟩, ⟨⟨m2, a2, hm⟩, ⟨m4, a4, by linarith⟩⟩⟩,
          by linarith⟩
    · rcases le_total m3 m4 with hm | hm
      · exact ⟨m3, (hmem m3).mpr ⟨.inl a3, ⟨⟨m1, a1, by linarith⟩, ⟨m3, a3, le_refl _⟩⟩, ⟨⟨m2, a2, by linarith⟩, ⟨m4, a4, hm⟩⟩⟩,
          by linarith⟩
      · exact ⟨m4, (hmem m4).mpr ⟨.inr a4, ⟨⟨m1, a1, by linarith⟩, ⟨m3, a3, hm⟩⟩, ⟨⟨m2, a2, by linarith⟩, ⟨m4, a4, le_refl _⟩⟩⟩,
          by linarith⟩
  refine ⟨⟨?_, hinc, hlen⟩, hq⟩
  obtain ⟨⟨a, ha, _⟩, _⟩ := hq
  rintro h0
  rw [h0] at ha; cases ha

/-- Two neighbours around a number strictly between the first and the last of an increasing list. -/
theorem neighbours (l : List (Polar ℝ)) (Re : ℝ) (lo hi : Polar ℝ) (h1 : l.head? = some lo) (h2 : l.getLast? = some hi)
    (hl : lo.Re < Re) (hh : Re ≤ hi.Re) : ∃ (i : ℕ) (a b : Polar ℝ), l[i]? = some a ∧ l[i + 1]? = some b ∧ a.Re < Re ∧ Re ≤ b.Re := by
  induction l generalizing lo with
  | nil => cases h1
  | cons c l ih =>
    obtain rfl : c = lo := by simpa using h1
    cases l with
    | nil =>
      obtain rfl : c = hi := by simpa using h2
      linarith
    | cons d l =>
      rcases le_or_gt Re d.Re with hd | hd
      · exact ⟨0, c, d, rfl, rfl, hl, hd⟩
      · obtain ⟨i, a, b, ha, hb, hr⟩ := ih d rfl (by simpa using h2) hd
        exact ⟨i + 1, a, b, ha, hb, hr⟩

/-- `getPolar` answers for every Reynolds number, with a proper table at the nearest Reynolds number within the range. -/
theorem getPolar_nearest (af : AfSet ℝ) (h : af.WF) (x : ℝ) (hx : ∀ p ∈ af.polars, p.Covers x) (Re : ℝ) :
    ∃ q, af.getPolar Re = .ok q ∧ q.WF ∧ q.Covers x ∧ af.NearestRe Re q.Re := by
  obtain ⟨lo, hlo⟩ : ∃ p, af.polars.head? = some p := by
    cases hl : af.polars with
    | nil => exact absurd hl h.ne
    | cons p l => exact ⟨p, rfl⟩
  obtain ⟨hi, hhi⟩ : ∃ p, af.polars.getLast? = some p := by
    cases hl : af.polars.getLast? with
    | none => rw [List.getLast?_eq_none_iff] at hl; exact absurd hl h.ne
    | some p => exact ⟨p, rfl⟩
  have hlm := List.mem_of_head? hlo
  have hhm := List.mem_of_getLast? hhi
  have hle : lo.Re ≤ hi.Re := by
    cases hc : af.polars with
    | nil => exact absurd hc h.ne
    | cons a m =>
      have hinc := h.inc
      rw [hc, List.map_cons] at hinc
      rw [hc] at hlo hhm
      obtain rfl : a = lo := by simpa using hlo
      rcases List.mem_cons.mp hhm with e | e
      · rw [e]
      · exact ((List.pairwise_cons.mp hinc).1 hi.Re (List.mem_map_of_mem e)).le
  obtain ⟨s1, s2, s3⟩ := getPolar_spec af h Re
  rcases le_or_gt Re lo.Re with c1 | c1
  · exact ⟨lo, s1 lo hlo c1, h.wf lo hlm, hx lo hlm, lo, hi, hlo, hhi,
      by rw [max_eq_left (le_trans (min_le_left _ _) c1)]⟩
  rcases le_or_gt hi.Re Re with c2 | c2
  · exact ⟨hi, s2 hi hhi c2, h.wf hi hhm, hx hi hhm, lo, hi, hlo, hhi, by rw [min_eq_right c2, max_eq_right hle]⟩
  obtain ⟨i, a, b, ha, hb, r1, r2⟩ := neighbours af.polars Re lo hi hlo hhi c1 c2.le
  have ham := List.mem_of_getElem? ha
  have hbm := List.mem_of_getElem? hb
  have hlen : i + 1 < af.polars.length := (List.getElem?_eq_some_iff.mp hb).1
  have hin := getPolar_inside af h Re i a b ha hb r1 r2 (by
    rcases Nat.lt_or_ge (i + 2) af.polars.length with hi' | hi'
    · exact .inl hi'
    · right
      rw [List.getLast?_eq_getElem?, show af.polars.length - 1 = i + 1 by omega, hb] at hhi
      rw [Option.some.inj hhi]
      exact c2)
  obtain ⟨q, hq, hqR, _⟩ := blend_spec a b (h.wf a ham) (h.wf b hbm) ((Re - a.Re) / (b.Re - a.Re))
  obtain ⟨w1, w2⟩ := blend_wf a b q (h.wf a ham) (h.wf b hbm) _ x hq (hx a ham) (hx b hbm)
  refine ⟨q, by rw [hin, hq], w1, w2, lo, hi, hlo, hhi, ?_⟩
  rw [min_eq_left c2.le, max_eq_right c1.le, hqR]
  have : b.Re - a.Re ≠ 0 := by linarith
  field_simp
  ring

/-- **C90** Blending evaluates both airfoils at each Reynolds number of either, in increasing order, and blends the two polars found
there with the given weight (partial: the Reynolds number recorded is the weighted average of the nearest Reynolds numbers within the
ranges of the two airfoils, which is the one asked for only inside both ranges, see `airfoil_blend_Re_false`).  All polars cover some
common angle `x`. -/
theorem airfoil_blend_partial (af other : AfSet ℝ) (h : af.WF) (h' : other.WF) (x : ℝ) (hx : ∀ p ∈ af.polars, p.Covers x)
    (hx' : ∀ p ∈ other.polars, p.Covers x) (w : ℝ) (h0 : 0 ≤ w) (h1 : w ≤ 1) :
    ∃ (res : AfSet ℝ) (Relist : List ℝ), af.blend other w = .ok res ∧ Relist.Pairwise (· < ·) ∧
      (∀ Re, Re ∈ Relist ↔ (∃ p ∈ af.polars, p.Re = Re) ∨ ∃ p ∈ other.polars, p.Re = Re) ∧
      List.Forall₂ (fun Re q => ∃ p₁ p₂ : Polar ℝ, af.getPolar Re = .ok p₁ ∧ other.getPolar Re = .ok p₂ ∧ p₁.blend p₂ w = .ok q ∧
        af.NearestRe Re p₁.Re ∧ other.NearestRe Re p₂.Re ∧ q.Re = (1 - w) * p₁.Re + w * p₂.Re ∧ q.WF ∧
        ((∃ lo ∈ af.polars, lo.Re ≤ Re) → (∃ hi ∈ af.polars, Re ≤ hi.Re) → (∃ lo ∈ other.polars, lo.Re ≤ Re) →
          (∃ hi ∈ other.polars, Re ≤ hi.Re) → q.Re = Re)) Relist res.polars := by
  have hex : ∀ Re, ∃ q, (do let p1 ← af.getPolar Re; let p2 ← other.getPolar Re; p1.blend p2 w) = .ok q ∧
      ∃ p₁ p₂ : Polar ℝ, af.getPolar Re = .ok p₁ ∧ other.getPolar Re = .ok p₂ ∧ p₁.blend p₂ w = .ok q ∧
        af.NearestRe Re p₁.Re ∧ other.NearestRe Re p₂.Re ∧ q.Re = (1 - w) * p₁.Re + w * p₂.Re ∧ q.WF ∧
        ((∃ lo ∈ af.polars, lo.Re ≤ Re) → (∃ hi ∈ af.polars, Re ≤ hi.Re) → (∃ lo ∈ other.polars, lo.Re ≤ Re) →
          (∃ hi ∈ other.polars, Re ≤ hi.Re) → q.Re = Re) := by
    intro Re
    obtain ⟨p₁, e1, w1, c1, n1⟩ := getPolar_nearest af h x hx Re
    obtain ⟨p₂, e2, w2, c2, n2⟩ := getPolar_nearest other h' x hx' Re
    obtain ⟨q, hq, hqR, _⟩ := blend_spec p₁ p₂ w1 w2 w
    refine ⟨q, ?_, p₁, p₂, e1, e2, hq, n1, n2, hqR, (blend_wf p₁ p₂ q w1 w2 w x hq c1 c2).1, ?_⟩
    · rw [e1, e2]; exact hq
    · rintro ⟨l, hl, hl'⟩ ⟨u, hu, hu'⟩ ⟨l2, hl2, hl2'⟩ ⟨u2, hu2, hu2'⟩
      rw [hqR, n1.inside hl hu h.inc hl' hu', n2.inside hl2 hu2 h'.inc hl2' hu2']
      ring
  choose g hg1 hg2 using hex
  have hm := mapM_ok (fun Re => (do let p1 ← af.getPolar Re; let p2 ← other.getPolar Re; p1.blend p2 w)) g
    (npUnion (af.polars.map Polar.Re) (other.polars.map Polar.Re)) fun Re _ => hg1 Re
  have hmono : ∀ a b : ℝ, a < b → (g a).Re ≤ (g b).Re := by
    intro a b hab
    obtain ⟨p₁, p₂, _, _, _, n1, n2, r, _⟩ := hg2 a
    obtain ⟨q₁, q₂, _, _, _, m1, m2, s, _⟩ := hg2 b
    rw [r, s]
    have i1 := n1.mono m1 hab.le
    have i2 := n2.mono m2 hab.le
    have := mul_le_mul_of_nonneg_left i1 (sub_nonneg.mpr h1)
    have := mul_le_mul_of_nonneg_left i2 h0
    linarith
  have hmem : ∀ Re, Re ∈ npUnion (af.polars.map Polar.Re) (other.polars.map Polar.Re) ↔
      (∃ p ∈ af.polars, p.Re = Re) ∨ ∃ p ∈ other.polars, p.Re = Re := by
    intro Re; rw [mem_npUnion, List.mem_map, List.mem_map]
  refine ⟨⟨(npUnion (af.polars.map Polar.Re) (other.polars.map Polar.Re)).map g⟩, _, ?_, npUnion_strict _ _, hmem, ?_⟩
  · unfold AfSet.blend
    dsimp only
    rw [hm]
    refine build_sorted _ ?_ ?_
    · obtain ⟨p, hp⟩ := List.exists_mem_of_ne_nil _ h.ne
      intro hn
      have := (hmem p.Re).mpr (.inl ⟨p, hp, rfl⟩)
      rw [List.map_eq_nil_iff.mp hn] at this
      cases this
    · rw [List.map_map, List.pairwise_map]
      exact (npUnion_strict _ _).imp fun {a b} hab => hmono a b hab
  · rw [List.forall₂_map_right_iff, List.forall₂_same]
    intro Re _
    exact hg2 Re

/-- The two airfoils of the example: one polar each, at different Reynolds numbers. -/
theorem single_wf (p : Polar ℝ) (hp : p.WF) : AfSet.WF ⟨[p]⟩ :=
  ⟨by simp, by simp, by intro q hq; obtain rfl : q = p := by simpa using hq
                        exact hp⟩

/-- **C90** The result need not have a polar at a Reynolds number of either airfoil: blending an airfoil known at 1 with one known at 2
gives two polars, both at 3/2. -/
theorem airfoil_blend_Re_false : ∃ (af other res : AfSet ℝ), af.WF ∧ other.WF ∧ (∃ x, (∀ p ∈ af.polars, p.Covers x) ∧
    ∀ p ∈ other.polars, p.Covers x) ∧ af.blend other (1 / 2) = .ok res ∧ af.polars.map Polar.Re = [1] ∧
    other.polars.map Polar.Re = [2] ∧ res.polars.map Polar.Re = [3 / 2, 3 / 2] := by
  have w1 := single_wf widePolar widePolar_wf
  have w2 := single_wf narrowPolar narrowPolar_wf
  have c1 : ∀ p ∈ (⟨[widePolar]⟩ : AfSet ℝ).polars, p.Covers 5 := by
    intro p hp; obtain rfl : p = widePolar := by simpa using hp
    exact wide_covers.1
  have c2 : ∀ p ∈ (⟨[narrowPolar]⟩ : AfSet ℝ).polars, p.Covers 5 := by
    intro p hp; obtain rfl : p = narrowPolar := by simpa using hp
    exact wide_covers.2
  obtain ⟨res, Relist, hb, hinc, hmem, hf⟩ := airfoil_blend_partial ⟨[widePolar]⟩ ⟨[narrowPolar]⟩ w1 w2 5 c1 c2 (1 / 2) (by norm_num)
    (by norm_num)
  refine ⟨⟨[widePolar]⟩, ⟨[narrowPolar]⟩, res, w1, w2, ⟨5, c1, c2⟩, hb, rfl, rfl, ?_⟩
  have hl : Relist = [1, 2] := by
    refine strict_ext hinc (by norm_num) fun y => ?_
    rw [hmem]
    simp [widePolar, narrowPolar, eq_comm]
  have hre : ∀ (Re : ℝ) (q : Polar ℝ), (∃ p₁ p₂ : Polar ℝ, (⟨[widePolar]⟩ : AfSet ℝ).NearestRe Re p₁.Re ∧
      (⟨[narrowPolar]⟩ : AfSet ℝ).NearestRe Re p₂.Re ∧ q.Re = (1 - 1 / 2) * p₁.Re + 1 / 2 * p₂.Re) → q.Re = 3 / 2 := by
    rintro Re q ⟨p₁, p₂, ⟨l, u, e1, e2, n1⟩, ⟨l', u', e1', e2', n2⟩, r⟩
    obtain rfl : widePolar = l := by simpa using e1
    obtain rfl : widePolar = u := by simpa using e2
    obtain rfl : narrowPolar = l' := by simpa using e1'
    obtain rfl : narrowPolar = u' := by simpa using e2'
    rw [max_eq_left (min_le_right _ _)] at n1 n2
    rw [r, n1, n2]
    norm_num [widePolar, narrowPolar]
  subst hl
  have hf' : List.Forall₂ (fun (_ : ℝ) (q : Polar ℝ) => q.Re = 3 / 2) [1, 2] res.polars := by
    refine hf.imp ?_
    rintro Re q ⟨p₁, p₂, _, _, _, n1, n2, r, _⟩
    exact hre Re q ⟨p₁, p₂, n1, n2, r⟩
  generalize res.polars = l at hf' ⊢
  cases hf' with
  | cons a h => cases h with
    | cons b h => cases h; simp [a, b]

/-- Two airfoils with the same range of Reynolds numbers: here the polars of the blend are at the Reynolds numbers of either. -/
example : ∃ res : AfSet ℝ, threePolars.blend ⟨[{ widePolar with Re := 0 }, { narrowPolar with Re := 2 }]⟩ (1 / 2) = .ok res ∧
    res.polars.map Polar.Re = [0, 1, 2] := by
  have hw : AfSet.WF ⟨[{ widePolar with Re := 0 }, { narrowPolar with Re := 2 }]⟩ := by
    refine ⟨by simp, by simp, ?_⟩
    intro p hp
    simp only [List.mem_cons, List.not_mem_nil, or_false] at hp
    rcases hp with rfl | rfl
    · exact ⟨widePolar_wf.ne, widePolar_wf.inc, by intro c; cases c <;> rfl⟩
    · exact ⟨narrowPolar_wf.ne, narrowPolar_wf.inc, by intro c; cases c <;> rfl⟩
  obtain ⟨res, Relist, hb, hinc, hmem, hf⟩ := airfoil_blend_partial threePolars
    ⟨[{ widePolar with Re := 0 }, { narrowPolar with Re := 2 }]⟩ threePolars_wf hw 5
    (by
      intro p hp
      simp only [threePolars, List.mem_cons, List.not_mem_nil, or_false] at hp
      rcases hp with rfl | rfl | rfl
      · exact wide_covers.2
      · exact wide_covers.1
      · exact wide_covers.1)
    (by
      intro p hp
      simp only [List.mem_cons, List.not_mem_nil, or_false] at hp
      rcases hp with rfl | rfl
      · exact wide_covers.1
      · exact wide_covers.2) (1 / 2) (by norm_num) (by norm_num)
  have hl : Relist = [0, 1, 2] := by
    refine strict_ext hinc (by norm_num) fun y => ?_
    rw [hmem]
    simp only [threePolars, widePolar, List.mem_cons, List.not_mem_nil, or_false, exists_eq_or_imp, exists_eq_left]
    constructor
    · rintro ((h | h | h) | (h | h)) <;> simp [← h]
    · rintro (h | h | h) <;> simp [h]
  subst hl
  refine ⟨res, hb, ?_⟩
  have hf' : List.Forall₂ (fun (Re : ℝ) (q : Polar ℝ) => 0 ≤ Re → Re ≤ 2 → q.Re = Re) [0, 1, 2] res.polars := by
    refine hf.imp ?_
    rintro Re q ⟨p₁, p₂, _, _, _, _, _, _, _, hr⟩ h0 h2
    exact hr ⟨{ narrowPolar with Re := 0 }, by simp [threePolars], h0⟩ ⟨{ widePolar with Re := 2 }, by simp [threePolars], h2⟩
      ⟨{ widePolar with Re := 0 }, by simp, h0⟩ ⟨{ narrowPolar with Re := 2 }, by simp, h2⟩
  generalize res.polars = l at hf' ⊢
  cases hf' with
  | cons a h => cases h with
    | cons b h => cases h with
      | cons c h =>
        cases h
        simp [a (by norm_num) (by norm_num), b (by norm_num) (by norm_num), c (by norm_num) (by norm_num)]

end Verif
