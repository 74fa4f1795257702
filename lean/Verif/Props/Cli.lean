import Verif.Props.Flap
import Verif.Props.AeroDynWrite

/-!
# The command line of `airfoilprep.py` (C93)

The specification: `Parts` and `LastPart` take a file name apart, `OutName` says which file is written, `CliDoes` which airfoil.
-/

namespace Verif

/-- The last component of a path -/
def LastPart (p b : List Char) : Prop := ∃ d, p = d ++ b ∧ '/' ∉ b ∧ (d = [] ∨ d.getLast? = some '/')

/-- `name` and the extension `.e` of a file name: the last dot of the last component, if not only dots stand before it -/
def Extension (p name e : List Char) : Prop :=
  p = name ++ '.' :: e ∧ '.' ∉ e ∧ '/' ∉ e ∧ ∃ b, LastPart name b ∧ ∃ c ∈ b, c ≠ '.'

/-- A file name and its extension, which may be empty -/
def Parts (p name ext : List Char) : Prop :=
  (∃ e, ext = '.' :: e ∧ Extension p name e) ∨ (ext = [] ∧ name = p ∧ ∀ n e, ¬ Extension p n e)

/-- The file that is written -/
def OutName (a : CliArgs) (out : List Char) : Prop :=
  a.out = some out ∨ (a.out = none ∧ ∃ name ext, Parts a.src name ext ∧
    ((a.stall3D.isSome ∧ out = name ++ "_3D".toList ++ ext) ∨
      (a.stall3D = none ∧ a.extrap.isSome ∧ out = name ++ "_extrap".toList ++ ext) ∨
      (a.stall3D = none ∧ a.extrap = none ∧ ∃ other w b name' ext', a.blend = some (other, w) ∧ LastPart other b ∧ Parts b name' ext' ∧
        out = name ++ "+".toList ++ name' ++ "_blend".toList ++ w ++ ext')))

/-- The file `name` contains the airfoil `af`. -/
def Contains (lex : Lex ℝ) (fuel : ℕ) (fs : FS) (name : List Char) (af : AfSet ℝ) : Prop :=
  ∃ text, fs name = some text ∧ readAeroDyn lex fuel text = some (.ok af)

/-- The airfoil that is asked for: corrected, else extrapolated, else blended -/
inductive CliDoes (lex : Lex ℝ) (fit : PolyFit ℝ) (fuel : ℕ) (a : CliArgs) (fs : FS) : AfSet ℝ → Prop
  | stall3D {s₁ s₂ s₃ x y z af res} : a.stall3D = some (s₁, s₂, s₃) → Contains lex fuel fs a.src af → lex.toFloat s₁ = .ok x →
      lex.toFloat s₂ = .ok y → lex.toFloat s₃ = .ok z →
      af.correction3D fit { rOverR := x, chordOverR := y, tsr := z, alphaMaxCorr := 30, alphaLinearMin := -5, alphaLinearMax := 5 } = .ok res →
      CliDoes lex fit fuel a fs res
  | extrap {s x af res} : a.stall3D = none → a.extrap = some s → Contains lex fuel fs a.src af → lex.toFloat s = .ok x →
      af.extrapolate x none (1 / 1000) = .ok res → CliDoes lex fit fuel a fs res
  | blend {other s w af af' res} : a.stall3D = none → a.extrap = none → a.blend = some (other, s) → Contains lex fuel fs a.src af →
      Contains lex fuel fs other af' → lex.toFloat s = .ok w → af.blend af' w = .ok res → CliDoes lex fit fuel a fs res

/-- An action is asked for. -/
def CliArgs.Acts (a : CliArgs) : Prop := a.stall3D ≠ none ∨ a.extrap ≠ none ∨ a.blend ≠ none

/-! ## File names -/

theorem takeWhile_last {s t : List Char} {c : Char} (h : c ∉ t) : ((s ++ c :: t).reverse.takeWhile (· ≠ c)).reverse = t := by
  have hall : ∀ d ∈ t.reverse, decide (d ≠ c) = true := by
    intro d hd
    simp only [ne_eq, decide_not, Bool.not_eq_true', decide_eq_false_iff_not]
    rintro rfl
    exact h (List.mem_reverse.1 hd)
  rw [List.reverse_append, List.reverse_cons, List.append_assoc, List.takeWhile_append_of_pos hall, List.singleton_append,
    List.takeWhile_cons_of_neg (by simp)]
  simp

theorem takeWhile_whole {t : List Char} {c : Char} (h : c ∉ t) : (t.reverse.takeWhile (· ≠ c)).reverse = t := by
  have hall : ∀ d ∈ t.reverse, decide (d ≠ c) = true := by
    intro d hd
    simp only [ne_eq, decide_not, Bool.not_eq_true', decide_eq_false_iff_not]
    rintro rfl
    exact h (List.mem_reverse.1 hd)
  have := List.takeWhile_append_of_pos (l₂ := []) hall
  rw [List.append_nil] at this
  rw [this]
  simp

theorem last_split {l : List Char} {c : Char} (h : c ∈ l) : ∃ s t, l = s ++ c :: t ∧ c ∉ t := by
  obtain ⟨s, t, hl, hs⟩ := List.eq_append_cons_of_mem (List.mem_reverse.2 h)
  refine ⟨t.reverse, s.reverse, ?_, by simpa using hs⟩
  rw [← List.reverse_reverse l, hl]
  simp

theorem lastPart_baseName {p b : List Char} (h : LastPart p b) : baseName p = b := by
  obtain ⟨d, rfl, hb, hd⟩ := h
  unfold baseName
  rcases hd with rfl | hd
  · exact takeWhile_whole hb
  · obtain ⟨l, rfl⟩ := List.getLast?_eq_some_iff.1 hd
    rw [List.append_assoc]
    exact takeWhile_last hb

theorem lastPart_exists (p : List Char) : ∃ b, LastPart p b := by
  by_cases h : '/' ∈ p
  · obtain ⟨s, t, rfl, ht⟩ := last_split h
    exact ⟨t, s ++ ['/'], by simp, ht, .inr (by simp)⟩
  · exact ⟨p, [], rfl, h, .inl rfl⟩

theorem baseName_lastPart (p : List Char) : LastPart p (baseName p) := by
  obtain ⟨b, hb⟩ := lastPart_exists p
  rw [lastPart_baseName hb]
  exact hb

theorem lastPart_dirPart {d b : List Char} (hb : '/' ∉ b) (hd : d = [] ∨ d.getLast? = some '/') : dirPart (d ++ b) = d := by
  have hall : ∀ c ∈ b.reverse, decide (c ≠ '/') = true := by
    intro c hc
    simp only [ne_eq, decide_not, Bool.not_eq_true', decide_eq_false_iff_not]
    rintro rfl
    exact hb (List.mem_reverse.1 hc)
  unfold dirPart
  rw [List.reverse_append, List.dropWhile_append_of_pos hall]
  rcases hd with rfl | hd
  · rfl
  · obtain ⟨l, rfl⟩ := List.getLast?_eq_some_iff.1 hd
    simp

theorem splitext_parts (p : List Char) : Parts p (splitext p).1 (splitext p).2 := by
  obtain ⟨b, hb⟩ := lastPart_exists p
  have hbase := lastPart_baseName hb
  have huniq : ∀ {n e : List Char}, Extension p n e → ∃ s, b = s ++ '.' :: e ∧ '.' ∉ e ∧ ∃ c ∈ s, c ≠ '.' := by
    rintro n e ⟨hp, h1, h2, s, ⟨d, hn, hs, hd⟩, hc⟩
    refine ⟨s, ?_, h1, hc⟩
    have : LastPart p (s ++ '.' :: e) := ⟨d, by rw [hp, hn, List.append_assoc], by
      simp only [List.mem_append, List.mem_cons, not_or]
      exact ⟨hs, by decide, h2⟩, hd⟩
    rw [← hbase, lastPart_baseName this]
  obtain ⟨d, hp, hbs, hd⟩ := hb
  unfold splitext
  rw [hbase]
  dsimp only
  by_cases hdot : '.' ∈ b
  · obtain ⟨s, e, rfl, he⟩ := last_split hdot
    rw [takeWhile_last he]
    have hlen : (s ++ '.' :: e).length - e.length - 1 = s.length := by simp; omega
    rw [hlen, List.take_left']
    · have hs : '/' ∉ s := fun h => hbs (by simp [h])
      by_cases hc : ∃ c ∈ s, c ≠ '.'
      · rw [if_pos (by simpa using hc)]
        refine .inl ⟨e, rfl, ?_, he, fun h => hbs (by simp [h]), s, ⟨d, ?_, hs, hd⟩, hc⟩
        · dsimp only
          rw [hp, lastPart_dirPart hbs hd, List.append_assoc]
        · dsimp only
          rw [hp, lastPart_dirPart hbs hd]
      · rw [if_neg (by simpa using hc)]
        refine .inr ⟨rfl, rfl, fun n e' h => ?_⟩
        obtain ⟨s', h1, h2, h3⟩ := huniq h
        have e1 := takeWhile_last (s := s) he
        rw [h1, takeWhile_last h2] at e1
        rw [e1] at h1
        rw [List.append_cancel_right h1] at hc
        exact hc h3
    · rfl
  · rw [if_neg (by simp [hdot])]
    refine .inr ⟨rfl, rfl, fun n e h => ?_⟩
    obtain ⟨s, rfl, -⟩ := huniq h
    exact hdot (by simp)

theorem extension_unique {p n e n' e' : List Char} (h : Extension p n e) (h' : Extension p n' e') : n = n' ∧ e = e' := by
  have e1 := takeWhile_last (s := n) h.2.1
  have e2 := takeWhile_last (s := n') h'.2.1
  rw [← h.1] at e1
  rw [← h'.1, e1] at e2
  subst e2
  exact ⟨List.append_cancel_right (h.1.symm.trans h'.1), rfl⟩

theorem parts_unique {p n e n' e' : List Char} (h : Parts p n e) (h' : Parts p n' e') : n = n' ∧ e = e' := by
  rcases h with ⟨x, rfl, h⟩ | ⟨rfl, rfl, h⟩ <;> rcases h' with ⟨x', rfl, h'⟩ | ⟨rfl, rfl, h'⟩
  · obtain ⟨rfl, rfl⟩ := extension_unique h h'
    exact ⟨rfl, rfl⟩
  · exact absurd h (h' _ _)
  · exact absurd h' (h _ _)
  · exact ⟨rfl, rfl⟩

/-- The name of the output file is determined by the arguments. -/
theorem outName_unique {a : CliArgs} {out out' : List Char} (h : OutName a out) (h' : OutName a out') : out = out' := by
  rcases h with h | ⟨h, n, e, hp, h2⟩ <;> rcases h' with h' | ⟨h', n', e', hp', h2'⟩
  · rw [h] at h'
    exact Option.some.inj h'
  · rw [h] at h'; cases h'
  · rw [h'] at h; cases h
  · obtain ⟨rfl, rfl⟩ := parts_unique hp hp'
    rcases h2 with ⟨h2, rfl⟩ | ⟨h2, h3, rfl⟩ | ⟨h2, h3, o, w, b, x, y, hb, hl, hpx, rfl⟩ <;>
      rcases h2' with ⟨h2', rfl⟩ | ⟨h2', h3', rfl⟩ | ⟨h2', h3', o', w', b', x', y', hb', hl', hpx', rfl⟩
    all_goals first
      | rfl
      | (exfalso; rw [h2] at h2'; cases h2'; done)
      | (exfalso; rw [h2'] at h2; cases h2; done)
      | (exfalso; rw [h3] at h3'; cases h3'; done)
      | (exfalso; rw [h3'] at h3; cases h3; done)
      | skip
    rw [hb] at hb'
    cases hb'
    have eb := (lastPart_baseName hl).symm.trans (lastPart_baseName hl')
    subst eb
    obtain ⟨rfl, rfl⟩ := parts_unique hpx hpx'
    rfl

theorem parts_append {p n e : List Char} (h : Parts p n e) : p = n ++ e := by
  rcases h with ⟨x, rfl, h⟩ | ⟨rfl, rfl, -⟩
  · exact h.1
  · simp

theorem outName_ne_src {a : CliArgs} {out : List Char} (h : OutName a out) (ho : a.out = none) : out ≠ a.src := by
  rcases h with h | ⟨-, name, ext, hp, h⟩
  · rw [ho] at h; cases h
  · intro e
    have e := e.trans (parts_append hp)
    have hx : ∀ c l, ext = c :: l → c = '.' := by
      rintro c l rfl
      rcases hp with ⟨x, hx, -⟩ | ⟨hx, -⟩
      · exact (List.cons.inj hx).1
      · cases hx
    rcases h with ⟨-, rfl⟩ | ⟨-, -, rfl⟩ | ⟨-, -, other, w, b, name', ext', -, -, -, rfl⟩
    · rw [List.append_assoc] at e
      exact absurd (hx _ _ (List.append_cancel_left e).symm) (by decide)
    · rw [List.append_assoc] at e
      exact absurd (hx _ _ (List.append_cancel_left e).symm) (by decide)
    · simp only [List.append_assoc] at e
      exact absurd (hx _ _ (List.append_cancel_left e).symm) (by decide)

theorem outName_ne_other {a : CliArgs} {out other w : List Char} (h : OutName a out) (ho : a.out = none) (h1 : a.stall3D = none)
    (h2 : a.extrap = none) (h3 : a.blend = some (other, w)) (hw : '/' ∉ w) : out ≠ other := by
  rcases h with h | ⟨-, name, ext, hp, h⟩
  · rw [ho] at h; cases h
  · rcases h with ⟨h, -⟩ | ⟨-, h, -⟩ | ⟨-, -, other', w', b, name', ext', hb, hl, hp', e⟩
    · rw [h1] at h; cases h
    · rw [h2] at h; cases h
    · rw [h3] at hb
      cases hb
      intro e'
      obtain ⟨d, -, hb, -⟩ := id hl
      have hbe := parts_append hp'
      rw [hbe] at hb
      simp only [List.mem_append, not_or] at hb
      obtain ⟨c, d', hc, hcs, hd'⟩ := lastPart_exists name
      have : LastPart other (c ++ "+".toList ++ name' ++ "_blend".toList ++ w ++ ext') := by
        refine ⟨d', ?_, ?_, hd'⟩
        · rw [← e', e, hc]
          simp only [List.append_assoc]
        · simp only [List.mem_append, not_or]
          exact ⟨⟨⟨⟨⟨hcs, by decide⟩, hb.1⟩, by decide⟩, hw⟩, hb.2⟩
      have e2 := (lastPart_baseName this).symm.trans (lastPart_baseName hl)
      rw [hbe] at e2
      have := congrArg List.length e2
      simp at this
      omega

/-! ## The program -/

theorem writePolars_spec (fit : PolyFit ℝ) (fmt : ℝ → List Char) (ps : List (Polar ℝ)) (text : List Char) :
    writePolars fit fmt ps text =
      match ps.mapM (polarText fit fmt) with
      | .ok bodies => (text ++ bodies.flatten.flatten, .ok ())
      | .error e => ((writePolars fit fmt ps text).1, .error e) := by
  induction ps generalizing text with
  | nil => simp [writePolars, pure, Except.pure]
  | cons p ps ih =>
    rw [List.mapM_cons]
    cases hp : polarText fit fmt p with
    | error e => simp [writePolars, hp, bind, Except.bind]
    | ok l =>
      have := ih (text ++ l.flatten)
      cases hm : ps.mapM (polarText fit fmt) with
      | error e => 
        rw [hm] at this
        simp only [writePolars, hp, bind, Except.bind]
        rw [this]
      | ok bodies => 
        rw [hm] at this
        simp only [writePolars, hp, bind, Except.bind, pure, Except.pure]
        rw [this]
        simp

/-- `writeFile` in terms of the text of C67 -/
theorem writeFile_spec (fit : PolyFit ℝ) (fmt : ℝ → List Char) (af : AfSet ℝ) (name : List Char) (fs : FS) :
    (∃ text, af.writeAeroDyn fit fmt = .ok text ∧ af.writeFile fit fmt name fs = (fs.put name text, .ok ())) ∨
      ∃ e, af.writeAeroDyn fit fmt = .error e ∧ ((af.interpToCommonAlpha none = .error e ∧ af.writeFile fit fmt name fs = (fs, .error e)) ∨
        ∃ part, af.writeFile fit fmt name fs = (fs.put name part, .error e)) := by
  unfold AfSet.writeAeroDyn AfSet.pieces AfSet.writeFile
  cases h : af.interpToCommonAlpha none with
  | error e => exact .inr ⟨e, rfl, .inl ⟨rfl, rfl⟩⟩
  | ok a =>
    dsimp only
    rw [writePolars_spec]
    cases hm : a.polars.mapM (polarText fit fmt) with
    | error e =>
      refine .inr ⟨e, ?_, .inr ⟨_, rfl⟩⟩
      simp [bind, Except.bind, hm]
    | ok bodies =>
      refine .inl ⟨_, ?_, rfl⟩
      simp [bind, Except.bind, hm, pure, Except.pure]

/-- The default name -/
def defaultOut (a : CliArgs) : List Char :=
  match a.stall3D with
  | some _ => (splitext a.src).1 ++ "_3D".toList ++ (splitext a.src).2
  | none =>
    match a.extrap with
    | some _ => (splitext a.src).1 ++ "_extrap".toList ++ (splitext a.src).2
    | none =>
      match a.blend with
      | some (other, w) => (splitext a.src).1 ++ '+' :: (splitext (baseName other)).1 ++ "_blend".toList ++ w ++ (splitext (baseName other)).2
      | none => []

theorem defaultOut_spec {a : CliArgs} (h : a.Acts) (ho : a.out = none) : OutName a (defaultOut a) := by
  refine .inr ⟨ho, _, _, splitext_parts a.src, ?_⟩
  unfold defaultOut
  cases h1 : a.stall3D with
  | some s => exact .inl ⟨rfl, rfl⟩
  | none =>
    cases h2 : a.extrap with
    | some s => exact .inr (.inl ⟨rfl, rfl, rfl⟩)
    | none =>
      cases h3 : a.blend with
      | none => simp [CliArgs.Acts, h1, h2, h3] at h
      | some q =>
        obtain ⟨other, w⟩ := q
        refine .inr (.inr ⟨rfl, rfl, other, w, _, _, _, rfl, baseName_lastPart other, splitext_parts _, ?_⟩)
        simp only [List.append_assoc, show "+".toList = ['+'] by decide, List.cons_append, List.nil_append]

theorem readFile_ok {lex : Lex ℝ} {fuel : ℕ} {fs : FS} {name : List Char} {af : AfSet ℝ} :
    readFile lex fuel name fs = some (.ok af) ↔ Contains lex fuel fs name af := by
  unfold readFile Contains
  cases fs name with
  | none => simp
  | some text => simp

theorem bind_ok {β γ : Type} {x : Except PyErr β} {f : β → Except PyErr γ} {c : γ} :
    (x >>= f) = .ok c ↔ ∃ b, x = .ok b ∧ f b = .ok c := by
  cases x with
  | error e => simp [bind, Except.bind]
  | ok b => simp [bind, Except.bind]

/-- The program computes the airfoil that is asked for, then finishes. -/
theorem cliMain_core {lex : Lex ℝ} {fit : PolyFit ℝ} {fmt : ℝ → List Char} {fuel : ℕ} {a : CliArgs} {fs : FS} (h : a.Acts) :
    (∀ q, cliMain lex fit fmt fuel a fs = some q → ∃ r : Except PyErr (AfSet ℝ), (∀ res, r = .ok res → CliDoes lex fit fuel a fs res) ∧
      q = cliFinish fit fmt a.common (a.out.getD (defaultOut a)) fs r) ∧
    ∀ res, CliDoes lex fit fuel a fs res →
      cliMain lex fit fmt fuel a fs = some (cliFinish fit fmt a.common (a.out.getD (defaultOut a)) fs (.ok res)) := by
  constructor
  · intro q hq
    unfold cliMain at hq
    unfold defaultOut
    cases h1 : a.stall3D with
    | some s =>
      obtain ⟨s1, s2, s3⟩ := s
      rw [h1] at hq
      dsimp only at hq ⊢
      cases hr : readFile lex fuel a.src fs with
      | none => rw [hr] at hq; cases hq
      | some r =>
        rw [hr] at hq
        refine ⟨_, fun res hres => ?_, (Option.some.inj hq).symm⟩
        simp only [bind_ok] at hres
        obtain ⟨af, rfl, x, hx, y, hy, z, hz, hc⟩ := hres
        refine .stall3D h1 (readFile_ok.1 hr) hx hy hz ?_
        simpa [num_real] using hc
    | none =>
      rw [h1] at hq
      dsimp only at hq ⊢
      cases h2 : a.extrap with
      | some s =>
        rw [h2] at hq
        dsimp only at hq ⊢
        cases hr : readFile lex fuel a.src fs with
        | none => rw [hr] at hq; cases hq
        | some r =>
          rw [hr] at hq
          refine ⟨_, fun res hres => ?_, (Option.some.inj hq).symm⟩
          simp only [bind_ok] at hres
          obtain ⟨af, rfl, x, hx, hc⟩ := hres
          refine .extrap h1 h2 (readFile_ok.1 hr) hx ?_
          simpa [num_real] using hc
      | none =>
        rw [h2] at hq
        dsimp only at hq ⊢
        cases h3 : a.blend with
        | none => simp [CliArgs.Acts, h1, h2, h3] at h
        | some w =>
          obtain ⟨other, w⟩ := w
          rw [h3] at hq
          dsimp only at hq ⊢
          cases hr : readFile lex fuel a.src fs with
          | none => rw [hr] at hq; cases hq
          | some r =>
            rw [hr] at hq
            cases r with
            | error e =>
              refine ⟨.error e, fun res hres => ?_, (Option.some.inj hq).symm⟩
              cases hres
            | ok af =>
              dsimp only at hq
              cases hr' : readFile lex fuel other fs with
              | none => rw [hr'] at hq; cases hq
              | some r' =>
                rw [hr'] at hq
                refine ⟨_, fun res hres => ?_, (Option.some.inj hq).symm⟩
                simp only [bind_ok] at hres
                obtain ⟨af', rfl, x, hx, hc⟩ := hres
                exact .blend h1 h2 h3 (readFile_ok.1 hr) (readFile_ok.1 hr') hx hc
  · intro res hres
    unfold cliMain defaultOut
    cases hres with
    | stall3D h1 hc hx hy hz hres =>
      rw [h1]
      dsimp only
      rw [readFile_ok.2 hc]
      simp only [hx, hy, hz, bind, Except.bind]
      rw [← hres]
      simp [num_real]
    | extrap h1 h2 hc hx hres =>
      rw [h1, h2]
      dsimp only
      rw [readFile_ok.2 hc]
      simp only [hx, bind, Except.bind]
      rw [← hres]
      simp [num_real]
    | blend h1 h2 h3 hc hc' hx hres =>
      rw [h1, h2, h3]
      dsimp only
      rw [readFile_ok.2 hc]
      dsimp only
      rw [readFile_ok.2 hc']
      simp only [hx, bind, Except.bind, hres]

/-- With `--common`, the polars are put on common angles of attack. -/
def Common (a : CliArgs) (res res' : AfSet ℝ) : Prop := if a.common then res.interpToCommonAlpha none = .ok res' else res' = res

theorem out_spec {a : CliArgs} (h : a.Acts) : OutName a (a.out.getD (defaultOut a)) := by
  cases ho : a.out with
  | none => exact defaultOut_spec h ho
  | some o => exact .inl ho

/-- **C93** A run of the command line with an action.  Only the file named by `--out`, or else the one with the default name, is written.
If the run succeeds, its text is the AeroDyn text of the airfoil that was asked for, read from the source file; if it fails, that file
is as before unless the failure is that of the writer. -/
theorem cli_writes (lex : Lex ℝ) (fit : PolyFit ℝ) (fmt : ℝ → List Char) (fuel : ℕ) (a : CliArgs) (fs fs' : FS) (r : Except PyErr Unit)
    (h : a.Acts) (hrun : cliMain lex fit fmt fuel a fs = some (fs', r)) :
    ∃ out, OutName a out ∧ (∀ m, m ≠ out → fs' m = fs m) ∧
      ((r = .ok () ∧ ∃ res res' text, CliDoes lex fit fuel a fs res ∧ Common a res res' ∧ res'.writeAeroDyn fit fmt = .ok text ∧
          fs' out = some text) ∨
        ∃ e, r = .error e ∧ (fs' out = fs out ∨
          ∃ res res', CliDoes lex fit fuel a fs res ∧ Common a res res' ∧ res'.writeAeroDyn fit fmt = .error e)) := by
  obtain ⟨x, hx, hq⟩ := (cliMain_core h).1 _ hrun
  refine ⟨a.out.getD (defaultOut a), out_spec h, ?_⟩
  generalize a.out.getD (defaultOut a) = out at hq ⊢
  unfold cliFinish at hq
  cases hc : (do let af ← x; if a.common then af.interpToCommonAlpha none else return af) with
  | error e =>
    rw [hc] at hq
    cases hq
    exact ⟨fun m _ => rfl, .inr ⟨e, rfl, .inl rfl⟩⟩
  | ok res' =>
    rw [hc] at hq
    obtain ⟨res, rfl, hres⟩ := bind_ok.1 hc
    have hcom : Common a res res' := by
      unfold Common
      split_ifs at hres ⊢ with hcm
      · exact hres
      · exact (Except.ok.inj hres).symm
    dsimp only at hq
    rcases writeFile_spec fit fmt res' out fs with ⟨text, ht, hw⟩ | ⟨e, he, ⟨-, hw⟩ | ⟨part, hw⟩⟩
    · rw [hw] at hq
      cases hq
      exact ⟨fun m hm => if_neg hm, .inl ⟨rfl, res, res', text, hx _ rfl, hcom, ht, if_pos rfl⟩⟩
    · rw [hw] at hq
      cases hq
      exact ⟨fun m _ => rfl, .inr ⟨e, rfl, .inl rfl⟩⟩
    · rw [hw] at hq
      cases hq
      exact ⟨fun m hm => if_neg hm, .inr ⟨e, rfl, .inr ⟨res, res', hx _ rfl, hcom, he⟩⟩⟩

/-- **C93** Conversely, whenever the airfoil that is asked for exists and can be written, the run succeeds and its text is in the output
file. -/
theorem cli_succeeds (lex : Lex ℝ) (fit : PolyFit ℝ) (fmt : ℝ → List Char) (fuel : ℕ) (a : CliArgs) (fs : FS) (res res' : AfSet ℝ)
    (text : List Char) (hres : CliDoes lex fit fuel a fs res) (hcom : Common a res res') (ht : res'.writeAeroDyn fit fmt = .ok text) :
    ∃ out fs', OutName a out ∧ cliMain lex fit fmt fuel a fs = some (fs', .ok ()) ∧ fs' out = some text := by
  have h : a.Acts := by
    cases hres with
    | stall3D h1 => exact .inl (by rw [h1]; simp)
    | extrap _ h2 => exact .inr (.inl (by rw [h2]; simp))
    | blend _ _ h3 => exact .inr (.inr (by rw [h3]; simp))
  have e : (do let af ← (Except.ok res : Except PyErr (AfSet ℝ)); if a.common then af.interpToCommonAlpha none else return af) = .ok res' := by
    refine bind_ok.2 ⟨res, rfl, ?_⟩
    unfold Common at hcom
    split_ifs at hcom ⊢ with hcm
    · exact hcom
    · rw [hcom]; rfl
  refine ⟨_, fs.put (a.out.getD (defaultOut a)) text, out_spec h, ?_, ?_⟩
  · rw [(cliMain_core h).2 res hres]
    unfold cliFinish
    rw [e]
    dsimp only
    rcases writeFile_spec fit fmt res' (a.out.getD (defaultOut a)) fs with ⟨text', ht', hw⟩ | ⟨e, he, -⟩
    · rw [ht] at ht'
      cases ht'
      rw [hw]
    · rw [ht] at he
      cases he
  · exact if_pos rfl

/-- **C93** Without an action nothing happens. -/
theorem cli_idle (lex : Lex ℝ) (fit : PolyFit ℝ) (fmt : ℝ → List Char) (fuel : ℕ) (a : CliArgs) (fs : FS) (h : ¬ a.Acts) :
    cliMain lex fit fmt fuel a fs = some (fs, .ok ()) := by
  simp only [CliArgs.Acts, not_or, not_not] at h
  unfold cliMain
  rw [h.1, h.2.1, h.2.2]

/-- **C93** Without `--out`, the source file stays as it is, whether or not the run succeeds, and so does the other file of a blend. -/
theorem cli_source_kept (lex : Lex ℝ) (fit : PolyFit ℝ) (fmt : ℝ → List Char) (fuel : ℕ) (a : CliArgs) (fs fs' : FS) (r : Except PyErr Unit)
    (hrun : cliMain lex fit fmt fuel a fs = some (fs', r)) (ho : a.out = none) :
    fs' a.src = fs a.src ∧ ∀ other w, a.stall3D = none → a.extrap = none → a.blend = some (other, w) → '/' ∉ w → fs' other = fs other := by
  by_cases h : a.Acts
  · obtain ⟨out, hout, hfr, -⟩ := cli_writes lex fit fmt fuel a fs fs' r h hrun
    exact ⟨hfr _ (outName_ne_src hout ho).symm, fun other w h1 h2 h3 hw => hfr _ (outName_ne_other hout ho h1 h2 h3 hw).symm⟩
  · rw [cli_idle lex fit fmt fuel a fs h] at hrun
    cases hrun
    exact ⟨rfl, fun _ _ _ _ _ _ => rfl⟩

/-- **C67** The runs of the command line cannot be chained (2D data to 3D data to extrapolated data): a run whose source is the file a successful run wrote
raises `IndexError` and writes nothing. -/
theorem cli_chain_false (lex : Lex ℝ) (fit : PolyFit ℝ) (fmt : ℝ → List Char) (hf : ∀ x, '\n' ∉ fmt x) (fuel : ℕ) (a : CliArgs) (fs fs' : FS)
    (h : a.Acts) (hrun : cliMain lex fit fmt fuel a fs = some (fs', .ok ())) :
    ∃ out, OutName a out ∧ ∀ (a' : CliArgs), a'.Acts → a'.src = out →
      cliMain lex fit fmt fuel a' fs' = some (fs', .error .indexError) := by
  obtain ⟨out, hout, -, ⟨-, res, res', text, -, -, ht, hf'⟩ | ⟨e, he, -⟩⟩ := cli_writes lex fit fmt fuel a fs fs' _ h hrun
  · refine ⟨out, hout, ?_⟩
    rintro a' h' rfl
    have hr : readFile lex fuel a'.src fs' = some (.error .indexError) := by
      unfold readFile
      rw [hf']
      exact aerodyn_roundtrip_false fit fmt hf lex res' text ht fuel
    unfold cliMain
    cases h1 : a'.stall3D with
    | some s =>
      dsimp only
      rw [hr]
      rfl
    | none =>
      dsimp only
      cases h2 : a'.extrap with
      | some s =>
        dsimp only
        rw [hr]
        rfl
      | none =>
        dsimp only
        cases h3 : a'.blend with
        | some s =>
          dsimp only
          rw [hr]
        | none => simp [CliArgs.Acts, h1, h2, h3] at h'
  · cases he

/-! ## A case -/

/-- A file with one table of three rows -/
def oneTable : List Char :=
  withLines (["h", "h", "h", "1 tables", "1.0 Re", "0", "0", "0", "0", "0", "0", "0", "0", "-10 -1 2 0", "0 0 1 0", "10 1 2 0",
    "EOT"].map String.toList)

theorem oneTable_wf : WellFormed decimalLex oneTable [⟨1, [⟨-10, -1, 2, 0⟩, ⟨0, 0, 1, 0⟩, ⟨10, 1, 2, 0⟩]⟩] := by
  have z : StartsWith decimalLex "0".toList 0 := ⟨['0'], [], by decide, by read_decimal⟩
  refine ⟨"h".toList, "h".toList, "h".toList, "1 tables".toList, ['1'], ["tables".toList],
    [["1.0 Re", "0", "0", "0", "0", "0", "0", "0", "0", "-10 -1 2 0", "0 0 1 0", "10 1 2 0", "EOT"].map String.toList],
    [], ?_, by decide, by read_decimal, ?_⟩
  · rw [oneTable, linesOf_withLines _ (by simp) (by decide)]
    rfl
  · refine .cons ⟨"1.0 Re".toList, ["0", "0", "0", "0", "0", "0", "0", "0"].map String.toList,
      ["-10 -1 2 0", "0 0 1 0", "10 1 2 0"].map String.toList, "EOT".toList, rfl,
      ⟨['1', '.', '0'], [['R', 'e']], by decide, by read_decimal⟩, rfl, ?_, ?_, ⟨[], [], rfl⟩⟩ .nil
    · intro p hp
      simp only [List.map_cons, List.map_nil, List.mem_cons, List.not_mem_nil, or_false, or_self] at hp
      exact ⟨0, by rw [hp]; exact z⟩
    · refine .cons ⟨by rw [← hasEOT_iff]; decide, [], ?_⟩ (.cons ⟨by rw [← hasEOT_iff]; decide, [], ?_⟩
        (.cons ⟨by rw [← hasEOT_iff]; decide, [], ?_⟩ .nil))
      · rw [show wordsOf "-10 -1 2 0".toList = ["-10", "-1", "2", "0"].map String.toList by decide]
        read_decimal
      · rw [show wordsOf "0 0 1 0".toList = ["0", "0", "1", "0"].map String.toList by decide]
        read_decimal
      · rw [show wordsOf "10 1 2 0".toList = ["10", "1", "2", "0"].map String.toList by decide]
        read_decimal

/-- `airfoilprep.py d/a.b.dat --stall3D 0.5 0.1 7` -/
def cliDemo : CliArgs := ⟨"d/a.b.dat".toList, some ("0.5".toList, "0.1".toList, "7".toList), none, none, none, false⟩

/-- The run succeeds and writes `d/a.b_3D.dat`; a second run on this file fails. -/
theorem cliDemo_runs : ∃ fs', cliMain decimalLex (fun _ => .ok (6, 0)) fixed6 (oneTable.length + 1) cliDemo
      (fun m => if m = "d/a.b.dat".toList then some oneTable else none) = some (fs', .ok ()) ∧
    (fs' "d/a.b_3D.dat".toList).isSome ∧
    cliMain decimalLex (fun _ => .ok (6, 0)) fixed6 (oneTable.length + 1)
      { src := "d/a.b_3D.dat".toList, stall3D := none, extrap := some "1.3".toList, blend := none, out := none, common := false } fs' =
      some (fs', .error .indexError) := by
  set fs : FS := fun m => if m = "d/a.b.dat".toList then some oneTable else none with hfs
  obtain ⟨af, h1, h2, h3⟩ := aerodyn_reader decimalLex oneTable _ (by simp) oneTable_wf (oneTable.length + 1) (by omega)
  set p : Polar ℝ := AfTable.polar ⟨1, [⟨-10, -1, 2, 0⟩, ⟨0, 0, 1, 0⟩, ⟨10, 1, 2, 0⟩]⟩ with hp
  have hpol : af.polars = [p] := List.perm_singleton.1 h2
  have hwf : p.WF := ⟨by simp [hp, AfTable.polar], by norm_num [hp, AfTable.polar, List.pairwise_cons], fun c => by
    cases c <;> simp [hp, AfTable.polar, Polar.col]⟩
  obtain ⟨q, _, hq, hq1, hq2, _, hq4, _⟩ := correction3D_spec (fun _ => .ok (6, 0)) p hwf ⟨1 / 2, 1 / 10, 7, 30, -5, 5⟩ 6 0
    (by norm_num) rfl
  have hc : af.correction3D (fun _ => .ok (6, 0)) ⟨1 / 2, 1 / 10, 7, 30, -5, 5⟩ = .ok ⟨[q]⟩ :=
    ((airfoil_correction3D (fun _ => .ok (6, 0)) af (by rw [hpol]; simp) h3 ⟨1 / 2, 1 / 10, 7, 30, -5, 5⟩).1 _).2
      (by rw [hpol]; exact .cons hq .nil)
  have hqwf : q.WF := ⟨by rw [hq2]; exact hwf.ne, by rw [hq2]; exact hwf.inc, hq4⟩
  have hdoes : CliDoes decimalLex (fun _ => .ok (6, 0)) (oneTable.length + 1) cliDemo fs ⟨[q]⟩ :=
    .stall3D rfl ⟨oneTable, if_pos rfl, h1⟩ (by read_decimal) (by read_decimal) (by read_decimal) hc
  have hu : ∀ r : Polar ℝ, r.alpha = [-10, 0, 10] → ∃ b, polarText (fun _ => .ok (6, 0)) fixed6 r = .ok b := by
    intro r hr
    rw [polarText, Polar.unsteadyparam, hr]
    simp [bind, Except.bind, pure, Except.pure]
  have hg : chosenGrid ⟨[q]⟩ none = [-10, 0, 10] := by
    refine strict_ext (foldl_union_strict _ _ List.Pairwise.nil) (by norm_num [List.pairwise_cons]) fun x => ?_
    rw [chosenGrid, mem_foldl_union]
    simp [hq2, hp, AfTable.polar]
  obtain ⟨b, hb⟩ := hu (regrid [-10, 0, 10] q) rfl
  obtain ⟨text, ht⟩ : ∃ text, (⟨[q]⟩ : AfSet ℝ).writeAeroDyn (fun _ => .ok (6, 0)) fixed6 = .ok text := by
    rw [AfSet.writeAeroDyn, AfSet.pieces, interpToCommonAlpha_ok ⟨[q]⟩ (by simp) (by simp) (by simpa using hqwf), hg]
    simp only [bind, Except.bind, List.map_cons, List.map_nil, List.mapM_cons, List.mapM_nil, hb, pure, Except.pure]
    exact ⟨_, rfl⟩
  obtain ⟨out, fs', ho, hrun, hout⟩ := cli_succeeds decimalLex (fun _ => .ok (6, 0)) fixed6 (oneTable.length + 1) cliDemo fs ⟨[q]⟩ ⟨[q]⟩ text
    hdoes rfl ht
  have ha : cliDemo.Acts := .inl (Option.some_ne_none _)
  have hname : out = "d/a.b_3D.dat".toList := by
    rw [outName_unique ho (defaultOut_spec ha rfl)]
    decide
  subst hname
  obtain ⟨out', ho', hchain⟩ := cli_chain_false decimalLex (fun _ => .ok (6, 0)) fixed6 (fun x => fixed6_format.newline x) (oneTable.length + 1) cliDemo fs fs' ha hrun
  exact ⟨fs', hrun, by rw [hout]; rfl, hchain _ (.inr (.inl (Option.some_ne_none _))) (outName_unique ho ho')⟩

end Verif
