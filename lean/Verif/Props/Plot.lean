import Verif.Model.Plot
import Verif.Props.Cli
import Verif.Props.AirfoilOps

/-!
# Plots (C123)

The specification: `Polar.column` and `columnName` name the three coefficients, `Polar.Rect` says that a polar can be drawn, `Shows` what
is to be seen in a figure.
-/

namespace Verif

/-- The coefficients in the order of the figures -/
def Polar.column (p : Polar ℝ) : ℕ → List ℝ
  | 0 => p.cl
  | 1 => p.cd
  | _ => p.cm

/-- What is written at the vertical axis -/
def columnName : ℕ → String
  | 0 => "lift coefficient"
  | 1 => "drag coefficient"
  | _ => "moment coefficient"

/-- Every angle of attack has the first `m` coefficients. -/
def Polar.Drawable (p : Polar ℝ) (m : ℕ) : Prop := ∀ c < m, (p.column c).length = p.alpha.length

/-- The figure has the curves `cs` over the angle of attack, and the axes are named. -/
def Shows (f : Figure ℝ) (c : ℕ) (cs : List (Curve ℝ)) : Prop :=
  f.xlabel = "angle of attack (deg)" ∧ f.ylabel = columnName c ∧ f.curves = cs

/-! ## Loops that collect figures -/

theorem foldlM_blocks {β γ : Type} (g : β → Except PyErr (List γ)) (l : List β) (acc : List γ) :
    l.foldlM (fun figs p => do let b ← g p; return figs ++ b) acc = (do let bs ← l.mapM g; return acc ++ bs.flatten) := by
  induction l generalizing acc with
  | nil => simp [pure, Except.pure, bind, Except.bind]
  | cons p l ih =>
    rw [List.foldlM_cons, List.mapM_cons]
    cases h : g p with
    | error e => simp [bind, Except.bind]
    | ok b =>
      have ih := ih (acc ++ b)
      simp only [bind, Except.bind, pure, Except.pure] at ih ⊢
      rw [ih]
      cases l.mapM g with
      | error e => rfl
      | ok bs => simp

theorem flatten_blocks {γ : Type} {k : ℕ} (bs : List (List γ)) (h : ∀ b ∈ bs, b.length = k) :
    bs.flatten.length = k * bs.length ∧ ∀ (j : ℕ) (b : List γ), bs[j]? = some b → ∀ c < k, bs.flatten[k * j + c]? = b[c]? := by
  induction bs with
  | nil => simp
  | cons b bs ih =>
    obtain ⟨h1, h2⟩ := ih fun b' hb => h b' (by simp [hb])
    have hb := h b (by simp)
    refine ⟨by rw [List.flatten_cons, List.length_append, h1, hb, List.length_cons]; ring, fun j b' hj c hc => ?_⟩
    rw [List.flatten_cons]
    cases j with
    | zero =>
      obtain rfl : b = b' := by simpa using hj
      rw [List.getElem?_append_left (by omega)]
      simp
    | succ j =>
      rw [List.getElem?_append_right (by rw [hb, mul_add]; omega), hb, ← h2 j b' (by simpa using hj) c hc]
      congr 1
      rw [mul_add]
      omega

/-- A loop over polars that draws `k` figures for each. -/
theorem loop_figures {β : Type} {k : ℕ} (g : β → Except PyErr (List (Figure ℝ))) (ok : β → Prop) (want : β → ℕ → Figure ℝ → Prop)
    (hok : ∀ p, ok p → ∃ b, g p = .ok b) (hno : ∀ p, ¬ ok p → g p = .error .valueError)
    (hw : ∀ p b, g p = .ok b → b.length = k ∧ ∀ c < k, ∃ f, b[c]? = some f ∧ want p c f) (l : List β) :
    ((∀ p ∈ l, ok p) → ∃ figs, l.foldlM (fun figs p => do let b ← g p; return figs ++ b) [] = .ok figs ∧ figs.length = k * l.length ∧
      ∀ (j : ℕ) (p : β), l[j]? = some p → ∀ c < k, ∃ f, figs[k * j + c]? = some f ∧ want p c f) ∧
    ((∃ p ∈ l, ¬ ok p) → l.foldlM (fun figs p => do let b ← g p; return figs ++ b) [] = .error .valueError) := by
  rw [foldlM_blocks]
  constructor
  · intro hall
    choose! b hb using hok
    have hm : l.mapM g = .ok (l.map b) := by
      rw [mapM_ok_iff]
      simp only [List.map_map]
      exact List.map_congr_left fun p hp => hb p (hall p hp)
    obtain ⟨h1, h2⟩ := flatten_blocks (k := k) (l.map b) fun x hx => by
      obtain ⟨p, hp, rfl⟩ := List.mem_map.mp hx
      exact (hw p _ (hb p (hall p hp))).1
    refine ⟨(l.map b).flatten, by rw [hm]; simp [bind, Except.bind, pure, Except.pure], by rw [h1, List.length_map], fun j p hj c hc => ?_⟩
    obtain ⟨f, hf, hwf⟩ := (hw p _ (hb p (hall p (List.mem_of_getElem? hj)))).2 c hc
    exact ⟨f, by rw [h2 j (b p) (by simp [hj]) c hc, hf], hwf⟩
  · rintro ⟨p, hp, hn⟩
    have he : l.mapM g = .error .valueError := by
      induction l with
      | nil => simp at hp
      | cons q l ih =>
        rw [List.mapM_cons]
        by_cases hq : ok q
        · obtain ⟨b, hb⟩ := hok q hq
          rcases List.mem_cons.mp hp with rfl | hp
          · exact absurd hq hn
          · rw [hb, ih hp]; rfl
        · rw [hno q hq]; rfl
    rw [he]; rfl

/-! ## Plots of polars -/

theorem polarFigure_spec (p : Polar ℝ) (y : List ℝ) (name : String) : polarFigure p y name =
    if p.alpha.length = y.length then .ok ⟨[⟨p.alpha, y, .millions (p.Re / 10 ^ 6)⟩], "angle of attack (deg)", name⟩ else .error .valueError := by
  unfold polarFigure Figure.draw
  dsimp only
  split_ifs <;> simp [bind, Except.bind, pure, Except.pure, Figure.axes, Figure.empty, num_real]
  norm_num

theorem plainFigure_spec (p : Polar ℝ) (y : List ℝ) (name : String) : plainFigure p y name =
    if p.alpha.length = y.length then .ok ⟨[⟨p.alpha, y, .none⟩], "angle of attack (deg)", name⟩ else .error .valueError := by
  unfold plainFigure Figure.draw
  dsimp only
  split_ifs <;> simp [bind, Except.bind, pure, Except.pure, Figure.axes, Figure.empty]

theorem pairFigure_spec (c d : Curve ℝ) (name : String) : pairFigure c d name =
    if c.x.length = c.y.length ∧ d.x.length = d.y.length then .ok ⟨[c, d], "angle of attack (deg)", name⟩ else .error .valueError := by
  unfold pairFigure Figure.draw
  by_cases h1 : c.x.length = c.y.length <;> by_cases h2 : d.x.length = d.y.length <;>
    simp [bind, Except.bind, pure, Except.pure, Figure.axes, Figure.empty, h1, h2]

theorem drawable_two {p : Polar ℝ} : p.Drawable 2 ↔ p.alpha.length = p.cl.length ∧ p.alpha.length = p.cd.length :=
  ⟨fun h => ⟨(h 0 (by norm_num)).symm, (h 1 (by norm_num)).symm⟩, fun h c hc => by
    interval_cases c
    · exact h.1.symm
    · exact h.2.symm⟩

theorem drawable_three {p : Polar ℝ} :
    p.Drawable 3 ↔ p.alpha.length = p.cl.length ∧ p.alpha.length = p.cd.length ∧ p.alpha.length = p.cm.length :=
  ⟨fun h => ⟨(h 0 (by norm_num)).symm, (h 1 (by norm_num)).symm, (h 2 (by norm_num)).symm⟩, fun h c hc => by
    interval_cases c
    · exact h.1.symm
    · exact h.2.1.symm
    · exact h.2.2.symm⟩

/-- Three figures drawn one after the other -/
private theorem three {p : Polar ℝ} {F : Polar ℝ → List ℝ → String → Except PyErr (Figure ℝ)} {lab : Polar ℝ → CurveLabel ℝ}
    (hF : ∀ p y name, F p y name = if p.alpha.length = y.length then .ok ⟨[⟨p.alpha, y, lab p⟩], "angle of attack (deg)", name⟩ else .error .valueError) :
    (p.Drawable 3 → ∃ b, (do
      let f1 ← F p p.cl "lift coefficient"
      let f2 ← F p p.cd "drag coefficient"
      let f3 ← F p p.cm "moment coefficient"
      return [f1, f2, f3] : Except PyErr (List (Figure ℝ))) = .ok b) ∧
    (¬ p.Drawable 3 → (do
      let f1 ← F p p.cl "lift coefficient"
      let f2 ← F p p.cd "drag coefficient"
      let f3 ← F p p.cm "moment coefficient"
      return [f1, f2, f3] : Except PyErr (List (Figure ℝ))) = .error .valueError) ∧
    ∀ b, (do
      let f1 ← F p p.cl "lift coefficient"
      let f2 ← F p p.cd "drag coefficient"
      let f3 ← F p p.cm "moment coefficient"
      return [f1, f2, f3] : Except PyErr (List (Figure ℝ))) = .ok b →
      b.length = 3 ∧ ∀ c < 3, ∃ f, b[c]? = some f ∧ Shows f c [⟨p.alpha, p.column c, lab p⟩] := by
  rw [hF, hF, hF, drawable_three]
  refine ⟨fun ⟨h1, h2, h3⟩ => ?_, fun h => ?_, fun b hb => ?_⟩
  · rw [if_pos h1, if_pos h2, if_pos h3]
    exact ⟨_, rfl⟩
  · by_cases h1 : p.alpha.length = p.cl.length
    · rw [if_pos h1]
      by_cases h2 : p.alpha.length = p.cd.length
      · rw [if_pos h2, if_neg fun h3 => h ⟨h1, h2, h3⟩]; rfl
      · rw [if_neg h2]; rfl
    · rw [if_neg h1]; rfl
  · obtain ⟨f1, h1, hb⟩ := bind_inv hb
    obtain ⟨f2, h2, hb⟩ := bind_inv hb
    obtain ⟨f3, h3, hb⟩ := bind_inv hb
    cases hb
    split_ifs at h1 h2 h3
    cases h1; cases h2; cases h3
    refine ⟨rfl, fun c hc => ?_⟩
    interval_cases c <;> exact ⟨_, rfl, rfl, rfl, rfl⟩

/-- **C123** `Polar.plot` draws three figures: lift, drag and moment coefficient over the angle of attack, labelled with the Reynolds number
in millions.  It raises `ValueError` exactly when a column has not the length of the angles. -/
theorem polar_plot (p : Polar ℝ) :
    (p.Drawable 3 → ∃ figs, p.plot = .ok figs ∧ figs.length = 3 ∧
      ∀ c < 3, ∃ f, figs[c]? = some f ∧ Shows f c [⟨p.alpha, p.column c, .millions (p.Re / 10 ^ 6)⟩]) ∧
    (¬ p.Drawable 3 → p.plot = .error .valueError) := by
  obtain ⟨h1, h2, h3⟩ := three (p := p) (F := polarFigure) (lab := fun p => .millions (p.Re / 10 ^ 6)) polarFigure_spec
  refine ⟨fun h => ?_, h2⟩
  obtain ⟨b, hb⟩ := h1 h
  exact ⟨b, hb, h3 b hb⟩

/-- **C123** (partial) `Airfoil.plot(single_figure=False)` draws three figures for each polar, in the order of the polars.  Missing: the default mode,
see `airfoil_plot_false`. -/
theorem airfoil_plot_partial (af : AfSet ℝ) :
    ((∀ p ∈ af.polars, p.Drawable 3) → ∃ figs, af.plot false = .ok figs ∧ figs.length = 3 * af.polars.length ∧
      ∀ (j : ℕ) (p : Polar ℝ), af.polars[j]? = some p → ∀ c < 3, ∃ f, figs[3 * j + c]? = some f ∧
        Shows f c [⟨p.alpha, p.column c, .millions (p.Re / 10 ^ 6)⟩]) ∧
    ((∃ p ∈ af.polars, ¬ p.Drawable 3) → af.plot false = .error .valueError) := by
  have h := fun p => three (p := p) (F := polarFigure) (lab := fun p => .millions (p.Re / 10 ^ 6)) polarFigure_spec
  have L := loop_figures (k := 3) _ (fun p => p.Drawable 3) (fun p c f => Shows f c [⟨p.alpha, p.column c, .millions (p.Re / 10 ^ 6)⟩])
    (fun p => (h p).1) (fun p => (h p).2.1) (fun p => (h p).2.2) af.polars
  have e : af.plot false = af.polars.foldlM (fun figs p => do
      let b ← (do
        let f1 ← polarFigure p p.cl "lift coefficient"
        let f2 ← polarFigure p p.cd "drag coefficient"
        let f3 ← polarFigure p p.cm "moment coefficient"
        return [f1, f2, f3] : Except PyErr (List (Figure ℝ)))
      return figs ++ b) [] := by
    unfold AfSet.plot
    rw [if_neg (by simp)]
    congr 1
    funext figs p
    simp only [bind, Except.bind, pure, Except.pure]
    cases polarFigure p p.cl "lift coefficient" with
    | error e => rfl
    | ok f1 =>
      cases polarFigure p p.cd "drag coefficient" with
      | error e => rfl
      | ok f2 => cases polarFigure p p.cm "moment coefficient" with
        | error e => rfl
        | ok f3 => simp
  rw [e]
  exact L

/-- **C123** (fails) In its default mode `Airfoil.plot` raises `AttributeError` for every airfoil that can be constructed, whatever its data. -/
theorem airfoil_plot_false (ps : List (Polar ℝ)) (af : AfSet ℝ) (h : AfSet.build ps = .ok af) : af.plot true = .error .attributeError := by
  have hne : ps ≠ [] := by rintro rfl; cases h
  obtain ⟨af', h1, h2, -⟩ := airfoil_sorted ps hne
  obtain rfl : af' = af := Except.ok.inj (h1.symm.trans h)
  unfold AfSet.plot
  rw [if_pos rfl]
  cases hp : af'.polars with
  | nil => rw [hp] at h2; exact absurd (List.nil_perm.mp h2) hne
  | cons p l => rfl

/-! ## `--plot` -/

/-- **C123** `--plot` does not change what is written: the files are those of the run without it, and an exception of that run is raised here too. -/
theorem cli_plot_files (lex : Lex ℝ) (fit : PolyFit ℝ) (fmt : ℝ → List Char) (fuel : ℕ) (a : CliArgs) (fs : FS) :
    (cliMainPlot lex fit fmt fuel a fs).map Prod.fst = (cliMain lex fit fmt fuel a fs).map Prod.fst ∧
    ∀ fs' e, cliMain lex fit fmt fuel a fs = some (fs', .error e) → cliMainPlot lex fit fmt fuel a fs = some (fs', .error e) := by
  have fin : ∀ common out r (figs : AfSet ℝ → Except PyErr (List (Figure ℝ))),
      (cliFinishPlot fit fmt common out fs r figs).1 = (cliFinish fit fmt common out fs r).1 ∧
      ∀ e, (cliFinish fit fmt common out fs r).2 = .error e → (cliFinishPlot fit fmt common out fs r figs).2 = .error e := by
    intro common out r figs
    unfold cliFinishPlot cliFinish
    cases (do let af ← r; if common then af.interpToCommonAlpha none else return af) with
    | error e => exact ⟨rfl, fun e' h => by cases h; rfl⟩
    | ok af =>
      dsimp only
      obtain ⟨fs', r'⟩ := af.writeFile fit fmt out fs
      cases r' with
      | error e => exact ⟨rfl, fun e' h => by cases h; rfl⟩
      | ok u => exact ⟨rfl, fun e' h => by cases h⟩
  have key : ∀ {common out r r'} (figs : AfSet ℝ → Except PyErr (List (Figure ℝ))), r = r' →
      (some (cliFinishPlot fit fmt common out fs r figs)).map Prod.fst = (some (cliFinish fit fmt common out fs r')).map Prod.fst ∧
      ∀ fs' e, some (cliFinish fit fmt common out fs r') = some (fs', .error e) → some (cliFinishPlot fit fmt common out fs r figs) = some (fs', .error e) := by
    intro common out r r' figs hr
    subst hr
    obtain ⟨h1, h2⟩ := fin common out r figs
    refine ⟨by simp [h1], fun fs' e h => ?_⟩
    have h := Option.some.inj h
    rw [Option.some.injEq]
    exact Prod.ext (by rw [h1, h]) (h2 e (by rw [h]))
  unfold cliMainPlot cliMain
  cases a.stall3D with
  | some s =>
    obtain ⟨s1, s2, s3⟩ := s
    dsimp only
    cases readFile lex fuel a.src fs with
    | none => exact ⟨rfl, fun _ _ h => by cases h⟩
    | some r =>
      cases r with
      | error e => exact ⟨rfl, fun fs' e' h => by cases h; rfl⟩
      | ok af => exact key _ rfl
  | none =>
    cases a.extrap with
    | some c =>
      dsimp only
      cases readFile lex fuel a.src fs with
      | none => exact ⟨rfl, fun _ _ h => by cases h⟩
      | some r =>
        cases r with
        | error e => exact ⟨rfl, fun fs' e' h => by cases h; rfl⟩
        | ok af => exact key _ rfl
    | none =>
      cases a.blend with
      | none => exact ⟨rfl, fun _ _ h => by cases h⟩
      | some b =>
        obtain ⟨other, w⟩ := b
        dsimp only
        cases readFile lex fuel a.src fs with
        | none => exact ⟨rfl, fun _ _ h => by cases h⟩
        | some r =>
          cases r with
          | error e => exact ⟨rfl, fun fs' e' h => by cases h; rfl⟩
          | ok af =>
            dsimp only
            cases readFile lex fuel other fs with
            | none => exact ⟨rfl, fun _ _ h => by cases h⟩
            | some r => exact key _ rfl

/-- The figures compare, polar by polar, the airfoil `af` (labelled `old`) with `af'` (labelled `new`): the first `k` coefficients of each. -/
def Compares (k : ℕ) (af af' : AfSet ℝ) (old new : String) (figs : List (Figure ℝ)) : Prop :=
  figs.length = k * af.polars.length ∧ ∀ (j : ℕ) (p q : Polar ℝ), af.polars[j]? = some p → af'.polars[j]? = some q → p.Re = q.Re ∧
    ∀ c < k, ∃ f, figs[k * j + c]? = some f ∧ ∃ cs, Shows f c cs ∧
      cs.Perm [⟨p.alpha, p.column c, .word old⟩, ⟨q.alpha, q.column c, .word new⟩]

/-- What `--plot` is to show for each action -/
inductive CliShows (lex : Lex ℝ) (fit : PolyFit ℝ) (fuel : ℕ) (a : CliArgs) (fs : FS) (figs : List (Figure ℝ)) : Prop
  | stall3D {af res res'} : a.stall3D ≠ none → Contains lex fuel fs a.src af → CliDoes lex fit fuel a fs res → Common a res res' →
      res'.polars.length = af.polars.length → Compares 2 af res' "2D" "3D" figs → CliShows lex fit fuel a fs figs
  | extrap {af res res'} : a.stall3D = none → a.extrap ≠ none → Contains lex fuel fs a.src af → CliDoes lex fit fuel a fs res → Common a res res' →
      res'.polars.length = af.polars.length → Compares 3 af res' "orig" "extrap" figs → CliShows lex fit fuel a fs figs
  | blend {res res'} : a.stall3D = none → a.extrap = none → CliDoes lex fit fuel a fs res → Common a res res' →
      figs.length = 3 * res'.polars.length → (∀ (j : ℕ) (p : Polar ℝ), res'.polars[j]? = some p → ∀ c < 3, ∃ f, figs[3 * j + c]? = some f ∧
        Shows f c [⟨p.alpha, p.column c, .none⟩]) → CliShows lex fit fuel a fs figs

theorem npInterps_length {xs xp fp l : List ℝ} (h : npInterps xs xp fp = .ok l) : xp.length = fp.length := by
  unfold npInterps at h
  by_contra hn
  rw [if_neg hn] at h
  cases h

theorem onGrid_drawable {p q : Polar ℝ} {g : List ℝ} (h : p.onGrid g = .ok q) : p.Drawable 3 := by
  unfold Polar.onGrid at h
  obtain ⟨_, h1, h⟩ := bind_inv h
  obtain ⟨_, h2, h⟩ := bind_inv h
  obtain ⟨_, h3, -⟩ := bind_inv h
  exact drawable_three.mpr ⟨npInterps_length h1, npInterps_length h2, npInterps_length h3⟩

theorem onGrid_Re {p q : Polar ℝ} {g : List ℝ} (h : p.onGrid g = .ok q) : q.Re = p.Re := by
  unfold Polar.onGrid at h
  obtain ⟨_, -, h⟩ := bind_inv h
  obtain ⟨_, -, h⟩ := bind_inv h
  obtain ⟨_, -, h⟩ := bind_inv h
  rw [← Except.ok.inj h]

theorem common_drawable {af af' : AfSet ℝ} (h : af.interpToCommonAlpha none = .ok af') : ∀ p ∈ af.polars, p.Drawable 3 := by
  intro p hp
  unfold AfSet.interpToCommonAlpha at h
  obtain ⟨l, h1, -⟩ := bind_inv h
  rw [mapM_forall₂] at h1
  obtain ⟨i, hi, rfl⟩ := List.getElem_of_mem hp
  have := (List.forall₂_iff_get.mp h1).2 i hi (by rw [← h1.length_eq]; exact hi)
  exact onGrid_drawable this

/-- The run with `--plot` after a success of the run without -/
theorem cliFinish_ok {fit : PolyFit ℝ} {fmt : ℝ → List Char} {a : CliArgs} {out : List Char} {fs fs' : FS} {r : Except PyErr (AfSet ℝ)}
    (h : cliFinish fit fmt a.common out fs r = (fs', .ok ())) (figs : AfSet ℝ → Except PyErr (List (Figure ℝ))) :
    ∃ res res', r = .ok res ∧ Common a res res' ∧ (∀ p ∈ res'.polars, p.Drawable 3) ∧
      cliFinishPlot fit fmt a.common out fs r figs = (fs', figs res') := by
  unfold cliFinish at h
  unfold cliFinishPlot
  cases hc : (do let af ← r; if a.common then af.interpToCommonAlpha none else return af) with
  | error e => rw [hc] at h; cases h
  | ok res' =>
    rw [hc] at h
    dsimp only at h ⊢
    obtain ⟨res, rfl, hres⟩ := bind_ok.1 hc
    refine ⟨res, res', rfl, ?_, ?_, by rw [h]⟩
    · unfold Common
      split_ifs at hres ⊢ with hcm
      · exact hres
      · exact (Except.ok.inj hres).symm
    · unfold AfSet.writeFile at h
      cases hi : res'.interpToCommonAlpha none with
      | error e => rw [hi] at h; cases h
      | ok x => exact common_drawable hi

/-- An airfoil read from a file: polars in order of their Reynolds numbers, every row complete. -/
theorem contains_facts {lex : Lex ℝ} {fuel : ℕ} {fs : FS} {name : List Char} {af : AfSet ℝ} (h : Contains lex fuel fs name af) :
    af.polars ≠ [] ∧ (af.polars.map Polar.Re).Pairwise (· ≤ ·) ∧ ∀ p ∈ af.polars, p.Drawable 3 := by
  obtain ⟨text, -, h⟩ := h
  obtain ⟨tables, hne, -, hb⟩ := readAeroDyn_inv lex fuel text af h
  obtain ⟨af', h1, h2, h3⟩ := airfoil_sorted (tables.map AfTable.polar) (by simpa using hne)
  obtain rfl : af' = af := Except.ok.inj (h1.symm.trans hb)
  refine ⟨fun h0 => ?_, ?_, fun p hp => ?_⟩
  · rw [h0] at h2
    exact hne (List.map_eq_nil_iff.mp (List.nil_perm.mp h2))
  · exact h3
  · obtain ⟨t, -, rfl⟩ := List.mem_map.mp (h2.mem_iff.mp hp)
    exact drawable_three.mpr ⟨by simp [AfTable.polar], by simp [AfTable.polar], by simp [AfTable.polar]⟩

/-- Putting polars on common angles keeps their order and Reynolds numbers. -/
theorem common_Re {a : CliArgs} {res res' : AfSet ℝ} (hne : res.polars ≠ []) (hs : (res.polars.map Polar.Re).Pairwise (· ≤ ·))
    (h : Common a res res') : res'.polars.map Polar.Re = res.polars.map Polar.Re := by
  unfold Common at h
  split_ifs at h with hc
  · have hf := fun (p q : Polar ℝ) (h : p.onGrid (res.polars.foldl (fun acc p => npUnion acc p.alpha) []) = .ok q) => onGrid_Re h
    exact forall₂_Re hf (((each_polar _ hf res hne hs).1 res').mp h)
  · rw [h]

private theorem pair_two {p q : Polar ℝ} :
    (p.Drawable 2 ∧ q.Drawable 2 → ∃ b, (do
      let f1 ← pairFigure ⟨p.alpha, p.cl, .word "2D"⟩ ⟨q.alpha, q.cl, .word "3D"⟩ "lift coefficient"
      let f2 ← pairFigure ⟨p.alpha, p.cd, .word "2D"⟩ ⟨q.alpha, q.cd, .word "3D"⟩ "drag coefficient"
      return [f1, f2] : Except PyErr (List (Figure ℝ))) = .ok b) ∧
    (¬ (p.Drawable 2 ∧ q.Drawable 2) → (do
      let f1 ← pairFigure ⟨p.alpha, p.cl, .word "2D"⟩ ⟨q.alpha, q.cl, .word "3D"⟩ "lift coefficient"
      let f2 ← pairFigure ⟨p.alpha, p.cd, .word "2D"⟩ ⟨q.alpha, q.cd, .word "3D"⟩ "drag coefficient"
      return [f1, f2] : Except PyErr (List (Figure ℝ))) = .error .valueError) ∧
    ∀ b, (do
      let f1 ← pairFigure ⟨p.alpha, p.cl, .word "2D"⟩ ⟨q.alpha, q.cl, .word "3D"⟩ "lift coefficient"
      let f2 ← pairFigure ⟨p.alpha, p.cd, .word "2D"⟩ ⟨q.alpha, q.cd, .word "3D"⟩ "drag coefficient"
      return [f1, f2] : Except PyErr (List (Figure ℝ))) = .ok b →
      b.length = 2 ∧ ∀ c < 2, ∃ f, b[c]? = some f ∧ ∃ cs, Shows f c cs ∧
        cs.Perm [⟨p.alpha, p.column c, .word "2D"⟩, ⟨q.alpha, q.column c, .word "3D"⟩] := by
  rw [pairFigure_spec, pairFigure_spec, drawable_two, drawable_two]
  dsimp only
  refine ⟨fun ⟨⟨h1, h2⟩, h3, h4⟩ => ?_, fun h => ?_, fun b hb => ?_⟩
  · rw [if_pos ⟨h1, h3⟩, if_pos ⟨h2, h4⟩]
    exact ⟨_, rfl⟩
  · by_cases h1 : p.alpha.length = p.cl.length ∧ q.alpha.length = q.cl.length
    · rw [if_pos h1, if_neg fun h2 => h ⟨⟨h1.1, h2.1⟩, h1.2, h2.2⟩]; rfl
    · rw [if_neg h1]; rfl
  · obtain ⟨f1, h1, hb⟩ := bind_inv hb
    obtain ⟨f2, h2, hb⟩ := bind_inv hb
    cases hb
    split_ifs at h1 h2
    cases h1; cases h2
    refine ⟨rfl, fun c hc => ?_⟩
    interval_cases c <;> exact ⟨_, rfl, _, ⟨rfl, rfl, rfl⟩, List.Perm.refl _⟩

private theorem pair_three {p q : Polar ℝ} :
    (p.Drawable 3 ∧ q.Drawable 3 → ∃ b, (do
      let f1 ← pairFigure ⟨q.alpha, q.cl, .word "extrap"⟩ ⟨p.alpha, p.cl, .word "orig"⟩ "lift coefficient"
      let f2 ← pairFigure ⟨q.alpha, q.cd, .word "extrap"⟩ ⟨p.alpha, p.cd, .word "orig"⟩ "drag coefficient"
      let f3 ← pairFigure ⟨q.alpha, q.cm, .word "extrap"⟩ ⟨p.alpha, p.cm, .word "orig"⟩ "moment coefficient"
      return [f1, f2, f3] : Except PyErr (List (Figure ℝ))) = .ok b) ∧
    (¬ (p.Drawable 3 ∧ q.Drawable 3) → (do
      let f1 ← pairFigure ⟨q.alpha, q.cl, .word "extrap"⟩ ⟨p.alpha, p.cl, .word "orig"⟩ "lift coefficient"
      let f2 ← pairFigure ⟨q.alpha, q.cd, .word "extrap"⟩ ⟨p.alpha, p.cd, .word "orig"⟩ "drag coefficient"
      let f3 ← pairFigure ⟨q.alpha, q.cm, .word "extrap"⟩ ⟨p.alpha, p.cm, .word "orig"⟩ "moment coefficient"
      return [f1, f2, f3] : Except PyErr (List (Figure ℝ))) = .error .valueError) ∧
    ∀ b, (do
      let f1 ← pairFigure ⟨q.alpha, q.cl, .word "extrap"⟩ ⟨p.alpha, p.cl, .word "orig"⟩ "lift coefficient"
      let f2 ← pairFigure ⟨q.alpha, q.cd, .word "extrap"⟩ ⟨p.alpha, p.cd, .word "orig"⟩ "drag coefficient"
      let f3 ← pairFigure ⟨q.alpha, q.cm, .word "extrap"⟩ ⟨p.alpha, p.cm, .word "orig"⟩ "moment coefficient"
      return [f1, f2, f3] : Except PyErr (List (Figure ℝ))) = .ok b →
      b.length = 3 ∧ ∀ c < 3, ∃ f, b[c]? = some f ∧ ∃ cs, Shows f c cs ∧
        cs.Perm [⟨p.alpha, p.column c, .word "orig"⟩, ⟨q.alpha, q.column c, .word "extrap"⟩] := by
  rw [pairFigure_spec, pairFigure_spec, pairFigure_spec, drawable_three, drawable_three]
  dsimp only
  refine ⟨fun ⟨⟨h1, h2, h3⟩, h4, h5, h6⟩ => ?_, fun h => ?_, fun b hb => ?_⟩
  · rw [if_pos ⟨h4, h1⟩, if_pos ⟨h5, h2⟩, if_pos ⟨h6, h3⟩]
    exact ⟨_, rfl⟩
  · by_cases h1 : q.alpha.length = q.cl.length ∧ p.alpha.length = p.cl.length
    · rw [if_pos h1]
      by_cases h2 : q.alpha.length = q.cd.length ∧ p.alpha.length = p.cd.length
      · rw [if_pos h2, if_neg fun h3 => h ⟨⟨h1.2, h2.2, h3.2⟩, h1.1, h2.1, h3.1⟩]; rfl
      · rw [if_neg h2]; rfl
    · rw [if_neg h1]; rfl
  · obtain ⟨f1, h1, hb⟩ := bind_inv hb
    obtain ⟨f2, h2, hb⟩ := bind_inv hb
    obtain ⟨f3, h3, hb⟩ := bind_inv hb
    cases hb
    split_ifs at h1 h2 h3
    cases h1; cases h2; cases h3
    refine ⟨rfl, fun c hc => ?_⟩
    interval_cases c <;> exact ⟨_, rfl, _, ⟨rfl, rfl, rfl⟩, List.Perm.swap _ _ _⟩

theorem drawable_mono {p : Polar ℝ} (h : p.Drawable 3) : p.Drawable 2 := fun c hc => h c (by omega)

private theorem zip_facts {af res' : AfSet ℝ} (hRe : res'.polars.map Polar.Re = af.polars.map Polar.Re) :
    res'.polars.length = af.polars.length ∧ (af.polars.zip res'.polars).length = af.polars.length ∧
    ∀ (j : ℕ) (p q : Polar ℝ), af.polars[j]? = some p → res'.polars[j]? = some q → p.Re = q.Re ∧ (af.polars.zip res'.polars)[j]? = some (p, q) := by
  have hl : res'.polars.length = af.polars.length := by simpa using congrArg List.length hRe
  refine ⟨hl, by simp [hl], fun j p q hp hq => ⟨?_, by rw [List.getElem?_zip_eq_some]; exact ⟨hp, hq⟩⟩⟩
  have := congrArg (·[j]?) hRe
  simpa [hp, hq] using this.symm

/-- **C123** Whenever a run of the command line succeeds, the run with `--plot` succeeds too, writes the same files, and shows for each polar of the
source its lift and drag curve together with that of the corrected polar of the same Reynolds number, or its three curves together with those of
the extrapolated polar, or the three curves of each blended polar; labels and axes belong to the curves they name. -/
theorem cli_plot_shows (lex : Lex ℝ) (fit : PolyFit ℝ) (fmt : ℝ → List Char) (fuel : ℕ) (a : CliArgs) (fs fs' : FS) (h : a.Acts)
    (hrun : cliMain lex fit fmt fuel a fs = some (fs', .ok ())) :
    ∃ figs, cliMainPlot lex fit fmt fuel a fs = some (fs', .ok figs) ∧ CliShows lex fit fuel a fs figs := by
  obtain ⟨-, -, -, ⟨-, res0, -, -, hdoes, -⟩ | ⟨e, he, -⟩⟩ := cli_writes lex fit fmt fuel a fs fs' _ h hrun
  swap
  · cases he
  have hdoes' := hdoes
  cases hdoes with
  | @stall3D s1 s2 s3 x y z af _ h1 hc hx hy hz hres =>
    obtain ⟨hne, hs, hd⟩ := contains_facts hc
    unfold cliMain at hrun
    unfold cliMainPlot
    rw [h1] at hrun ⊢
    dsimp only at hrun ⊢
    rw [readFile_ok.2 hc] at hrun ⊢
    dsimp only at hrun ⊢
    obtain ⟨res, res', e1, e2, e3, e4⟩ := cliFinish_ok (Option.some.inj hrun) (stallFigures af)
    simp only [hx, hy, hz, bind, Except.bind] at e1
    have e1' : af.correction3D fit ⟨x, y, z, 30, -5, 5⟩ = .ok res := by simpa [num_real] using e1
    obtain rfl : res0 = res := Except.ok.inj (hres.symm.trans e1')
    have hRe0 := (airfoil_correction3D fit af hne hs _).2.1 _ hres
    have hRe : res'.polars.map Polar.Re = af.polars.map Polar.Re := by
      rw [common_Re (fun h0 => hne (by rw [h0] at hRe0; exact List.map_eq_nil_iff.mp hRe0.symm)) (by rw [hRe0]; exact hs) e2, hRe0]
    obtain ⟨z1, z2, z3⟩ := zip_facts hRe
    obtain ⟨figs, f1, f2, f3⟩ := (loop_figures (k := 2) (fun pq : Polar ℝ × Polar ℝ => (do
        let f1 ← pairFigure ⟨pq.1.alpha, pq.1.cl, .word "2D"⟩ ⟨pq.2.alpha, pq.2.cl, .word "3D"⟩ "lift coefficient"
        let f2 ← pairFigure ⟨pq.1.alpha, pq.1.cd, .word "2D"⟩ ⟨pq.2.alpha, pq.2.cd, .word "3D"⟩ "drag coefficient"
        return [f1, f2] : Except PyErr (List (Figure ℝ)))) (fun pq => pq.1.Drawable 2 ∧ pq.2.Drawable 2) _
      (fun pq => pair_two.1) (fun pq => pair_two.2.1) (fun pq => pair_two.2.2) (af.polars.zip res'.polars)).1 fun pq hpq =>
        ⟨drawable_mono (hd _ (List.of_mem_zip hpq).1), drawable_mono (e3 _ (List.of_mem_zip hpq).2)⟩
    have e5 : stallFigures af res' = .ok figs := by
      rw [← f1]
      unfold stallFigures
      congr 1
      funext figs pq
      simp only [bind, Except.bind, pure, Except.pure]
      cases pairFigure ⟨pq.1.alpha, pq.1.cl, .word "2D"⟩ ⟨pq.2.alpha, pq.2.cl, .word "3D"⟩ "lift coefficient" with
      | error e => rfl
      | ok g1 =>
        cases pairFigure ⟨pq.1.alpha, pq.1.cd, .word "2D"⟩ ⟨pq.2.alpha, pq.2.cd, .word "3D"⟩ "drag coefficient" with
        | error e => rfl
        | ok g2 => rfl
    refine ⟨figs, by rw [← e5, ← e4]; rfl, .stall3D (by rw [h1]; simp) hc hdoes' e2 z1 ⟨by rw [f2, z2], fun j p q hp hq => ⟨(z3 j p q hp hq).1, ?_⟩⟩⟩
    exact f3 j (p, q) (z3 j p q hp hq).2
  | @extrap s x af _ h1 h2 hc hx hres =>
    obtain ⟨hne, hs, hd⟩ := contains_facts hc
    unfold cliMain at hrun
    unfold cliMainPlot
    rw [h1, h2] at hrun ⊢
    dsimp only at hrun ⊢
    rw [readFile_ok.2 hc] at hrun ⊢
    dsimp only at hrun ⊢
    obtain ⟨res, res', e1, e2, e3, e4⟩ := cliFinish_ok (Option.some.inj hrun) (extrapFigures af)
    simp only [hx, bind, Except.bind] at e1
    have e1' : af.extrapolate x none (1 / 1000) = .ok res := by simpa [num_real] using e1
    obtain rfl : res0 = res := Except.ok.inj (hres.symm.trans e1')
    have hRe0 := (airfoil_extrapolate af hne hs _ _ _).2.1 _ hres
    have hRe : res'.polars.map Polar.Re = af.polars.map Polar.Re := by
      rw [common_Re (fun h0 => hne (by rw [h0] at hRe0; exact List.map_eq_nil_iff.mp hRe0.symm)) (by rw [hRe0]; exact hs) e2, hRe0]
    obtain ⟨z1, z2, z3⟩ := zip_facts hRe
    obtain ⟨figs, f1, f2, f3⟩ := (loop_figures (k := 3) (fun pq : Polar ℝ × Polar ℝ => (do
        let f1 ← pairFigure ⟨pq.2.alpha, pq.2.cl, .word "extrap"⟩ ⟨pq.1.alpha, pq.1.cl, .word "orig"⟩ "lift coefficient"
        let f2 ← pairFigure ⟨pq.2.alpha, pq.2.cd, .word "extrap"⟩ ⟨pq.1.alpha, pq.1.cd, .word "orig"⟩ "drag coefficient"
        let f3 ← pairFigure ⟨pq.2.alpha, pq.2.cm, .word "extrap"⟩ ⟨pq.1.alpha, pq.1.cm, .word "orig"⟩ "moment coefficient"
        return [f1, f2, f3] : Except PyErr (List (Figure ℝ)))) (fun pq => pq.1.Drawable 3 ∧ pq.2.Drawable 3) _
      (fun pq => pair_three.1) (fun pq => pair_three.2.1) (fun pq => pair_three.2.2) (af.polars.zip res'.polars)).1 fun pq hpq =>
        ⟨hd _ (List.of_mem_zip hpq).1, e3 _ (List.of_mem_zip hpq).2⟩
    have e5 : extrapFigures af res' = .ok figs := by
      rw [← f1]
      unfold extrapFigures
      congr 1
      funext figs pq
      simp only [bind, Except.bind, pure, Except.pure]
      cases pairFigure ⟨pq.2.alpha, pq.2.cl, .word "extrap"⟩ ⟨pq.1.alpha, pq.1.cl, .word "orig"⟩ "lift coefficient" with
      | error e => rfl
      | ok g1 =>
        cases pairFigure ⟨pq.2.alpha, pq.2.cd, .word "extrap"⟩ ⟨pq.1.alpha, pq.1.cd, .word "orig"⟩ "drag coefficient" with
        | error e => rfl
        | ok g2 =>
          cases pairFigure ⟨pq.2.alpha, pq.2.cm, .word "extrap"⟩ ⟨pq.1.alpha, pq.1.cm, .word "orig"⟩ "moment coefficient" with
          | error e => rfl
          | ok g3 => rfl
    refine ⟨figs, by rw [← e5, ← e4]; rfl, .extrap h1 (by rw [h2]; simp) hc hdoes' e2 z1 ⟨by rw [f2, z2], fun j p q hp hq => ⟨(z3 j p q hp hq).1, ?_⟩⟩⟩
    exact f3 j (p, q) (z3 j p q hp hq).2
  | @blend other s w af af' _ h1 h2 h3 hc hc' hx hres =>
    unfold cliMain at hrun
    unfold cliMainPlot
    rw [h1, h2, h3] at hrun ⊢
    dsimp only at hrun ⊢
    rw [readFile_ok.2 hc] at hrun ⊢
    dsimp only at hrun ⊢
    rw [readFile_ok.2 hc'] at hrun ⊢
    dsimp only at hrun ⊢
    obtain ⟨res, res', e1, e2, e3, e4⟩ := cliFinish_ok (Option.some.inj hrun) blendFigures
    simp only [hx, bind, Except.bind] at e1
    obtain rfl : res0 = res := Except.ok.inj (hres.symm.trans e1)
    have T := fun p => three (p := p) (F := plainFigure) (lab := fun _ => .none) plainFigure_spec
    obtain ⟨figs, f1, f2, f3⟩ := (loop_figures (k := 3) _ (fun p => p.Drawable 3) (fun p c f => Shows f c [⟨p.alpha, p.column c, .none⟩])
      (fun p => (T p).1) (fun p => (T p).2.1) (fun p => (T p).2.2) res'.polars).1 e3
    have e5 : blendFigures res' = .ok figs := by
      rw [← f1]
      unfold blendFigures
      congr 1
      funext figs p
      simp only [bind, Except.bind, pure, Except.pure]
      cases plainFigure p p.cl "lift coefficient" with
      | error e => rfl
      | ok g1 =>
        cases plainFigure p p.cd "drag coefficient" with
        | error e => rfl
        | ok g2 =>
          cases plainFigure p p.cm "moment coefficient" with
          | error e => rfl
          | ok g3 => rfl
    exact ⟨figs, by rw [← e5, ← e4], .blend h1 h2 hdoes' e2 f2 f3⟩

/-! ## Examples -/

/-- A polar of three rows is drawn; one whose moment column is short is not. -/
example : (∃ figs, widePolar.plot = .ok figs ∧ figs.length = 3) ∧
    Polar.plot { widePolar with cm := [0] } = .error .valueError := by
  constructor
  · obtain ⟨figs, h1, h2, -⟩ := (polar_plot widePolar).1 (drawable_three.mpr ⟨rfl, rfl, rfl⟩)
    exact ⟨figs, h1, h2⟩
  · exact (polar_plot _).2 fun h => by simpa [widePolar] using (drawable_three.mp h).2.2

/-- Two polars: six figures one by one, `AttributeError` in the default mode. -/
example : ∃ af figs, AfSet.build [narrowPolar, widePolar] = .ok af ∧ af.plot false = .ok figs ∧ figs.length = 6 ∧
    (∃ f, figs[4]? = some f ∧ f.ylabel = "drag coefficient" ∧ f.curves = [⟨[-5, 5], [3, 3], .millions (2 / 10 ^ 6)⟩]) ∧
    af.plot true = .error .attributeError := by
  have hb : AfSet.build [narrowPolar, widePolar] = .ok ⟨[widePolar, narrowPolar]⟩ := by
    norm_num [AfSet.build, List.insertionSort, List.orderedInsert, narrowPolar, widePolar]
  obtain ⟨figs, h1, h2, h3⟩ := (airfoil_plot_partial ⟨[widePolar, narrowPolar]⟩).1 fun p hp => by
    simp only [List.mem_cons, List.not_mem_nil, or_false] at hp
    rcases hp with rfl | rfl <;> exact drawable_three.mpr ⟨rfl, rfl, rfl⟩
  obtain ⟨f, hf, -, g1, g2⟩ := h3 1 narrowPolar rfl 1 (by norm_num)
  exact ⟨_, figs, hb, h1, h2, ⟨f, hf, g1, g2⟩, airfoil_plot_false _ _ hb⟩

theorem cliDemo_acts : cliDemo.stall3D ≠ none := fun h => by cases h

/-- The run of `cli_chain_false` with `--plot`. -/
example : ∃ fs' figs, cliMainPlot decimalLex (fun _ => .ok (6, 0)) fixed6 (oneTable.length + 1) cliDemo
      (fun m => if m = "d/a.b.dat".toList then some oneTable else none) = some (fs', .ok figs) ∧
    CliShows decimalLex (fun _ => .ok (6, 0)) (oneTable.length + 1) cliDemo (fun m => if m = "d/a.b.dat".toList then some oneTable else none) figs := by
  obtain ⟨fs', h, -⟩ := cliDemo_runs
  obtain ⟨figs, h1, h2⟩ := cli_plot_shows _ _ _ _ cliDemo _ _ (.inl cliDemo_acts) h
  exact ⟨fs', figs, h1, h2⟩

end Verif
