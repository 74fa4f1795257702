import Verif.Model.Files
import Verif.Spec.AeroDyn
import Verif.Lemmas.AeroDyn
import Verif.Props.AirfoilOps

/-!
# Coordinates of an airfoil with a flap (C92)

XFOIL is a function on the files.  `FlapTemp` lists the names of the temporary files in the words of the user; `linesOf` splits a text
into lines.
-/

namespace Verif

variable {α : Type}

/-- `_p123` for the process 123, nothing when only one process runs -/
def pidTag : Option ℕ → List Char
  | none => []
  | some p => "_p".toList ++ Nat.toDigits 10 p

/-- `_123` for the process 123 -/
def pidNul : Option ℕ → List Char
  | none => []
  | some p => "_".toList ++ Nat.toDigits 10 p

theorem pidTag_none : pidTag none = [] := rfl
theorem pidTag_some (p : ℕ) : pidTag (some p) = "_p".toList ++ Nat.toDigits 10 p := rfl
theorem pidNul_some (p : ℕ) : pidNul (some p) = "_".toList ++ Nat.toDigits 10 p := rfl

/-- The file with the coordinates of the airfoil -/
def coordsFile (pid : Option ℕ) : List Char := "profilecoords".toList ++ pidTag pid ++ ".dat".toList

/-- The file XFOIL has to write -/
def savedFile (AFName df : List Char) (pid : Option ℕ) : List Char :=
  AFName ++ "_".toList ++ df ++ "_Airfoil".toList ++ pidTag pid ++ ".txt".toList

/-- The file with the input of XFOIL -/
def scriptFile (pid : Option ℕ) : List Char := "xfoil_input".toList ++ pidTag pid ++ ".txt".toList

/-- The file with the output of XFOIL -/
def outputFile (pid : Option ℕ) : List Char := "NUL".toList ++ pidNul pid

/-- The names of the temporary files of a call -/
def FlapTemp (AFName df : List Char) (pid : Option ℕ) (n : List Char) : Prop :=
  n = coordsFile pid ∨ n = savedFile AFName df pid ∨ n = scriptFile pid ∨ n = outputFile pid

/-- What is typed into XFOIL, line by line -/
def flapSession (AFName : List Char) (t : FlapText) (coords saved : List Char) : List (List Char) :=
  ["PLOP ".toList, " G ".toList, [],
   "LOAD ".toList, coords, AFName,
   "GDES ".toList, "FLAP ".toList, t.xc, "999".toList, t.yt, t.delta, "NAME ".toList, AFName ++ "_".toList ++ t.delta,
   "EXEC ".toList, " ".toList,
   "PPAR".toList, "N ".toList, t.numNodes, "T ".toList, "0.5".toList, [], [],
   "PSAV ".toList, saved ++ " ".toList, " ".toList,
   "QUIT ".toList, []]

/-! ## Names -/

theorem flapNames_coords (AFName df : List Char) (pid : Option ℕ) : (flapNames AFName df pid).coords = coordsFile pid := by
  cases pid with
  | none =>
    show "profilecoords.dat".toList = coordsFile none
    decide
  | some p =>
    show "profilecoords_p".toList ++ Nat.toDigits 10 p ++ ".dat".toList = _
    unfold coordsFile
    rw [pidTag_some, show "profilecoords_p".toList = "profilecoords".toList ++ "_p".toList by decide]
    simp only [List.append_assoc]

theorem flapNames_saveAF (AFName df : List Char) (pid : Option ℕ) :
    (flapNames AFName df pid).saveAF = savedFile AFName df pid := by
  cases pid with
  | none =>
    show AFName ++ '_' :: df ++ "_Airfoil.txt".toList = _
    simp only [savedFile, pidTag_none, show "_".toList = ['_'] by decide, List.append_nil,
      show "_Airfoil.txt".toList = "_Airfoil".toList ++ ".txt".toList by decide, List.append_assoc, List.cons_append, List.nil_append]
  | some p =>
    show AFName ++ '_' :: df ++ "_Airfoil_p".toList ++ Nat.toDigits 10 p ++ ".txt".toList = _
    simp only [savedFile, pidTag_some, show "_".toList = ['_'] by decide,
      show "_Airfoil_p".toList = "_Airfoil".toList ++ "_p".toList by decide, List.append_assoc, List.cons_append, List.nil_append]

theorem flapNames_script (AFName df : List Char) (pid : Option ℕ) : (flapNames AFName df pid).script = scriptFile pid := by
  cases pid with
  | none =>
    show "xfoil_input.txt".toList = scriptFile none
    decide
  | some p =>
    show "xfoil_input_p".toList ++ Nat.toDigits 10 p ++ ".txt".toList = _
    unfold scriptFile
    rw [pidTag_some, show "xfoil_input_p".toList = "xfoil_input".toList ++ "_p".toList by decide]
    simp only [List.append_assoc]

theorem flapNames_nul (AFName df : List Char) (pid : Option ℕ) : (flapNames AFName df pid).nul = outputFile pid := by
  cases pid with
  | none =>
    show "NUL".toList = outputFile none
    decide
  | some p =>
    show "NUL_".toList ++ Nat.toDigits 10 p = _
    unfold outputFile
    rw [pidNul_some, show "NUL_".toList = "NUL".toList ++ "_".toList by decide]
    simp only [List.append_assoc]

theorem flapNames_temp (AFName df : List Char) (pid : Option ℕ) (m : List Char) :
    FlapTemp AFName df pid m ↔ m = (flapNames AFName df pid).coords ∨ m = (flapNames AFName df pid).saveAF ∨
      m = (flapNames AFName df pid).script ∨ m = (flapNames AFName df pid).nul := by
  rw [flapNames_coords, flapNames_saveAF, flapNames_script, flapNames_nul]; rfl

theorem isDigit_of_toDigits {p : ℕ} {c : Char} (h : c ∈ Nat.toDigits 10 p) : c.isDigit = true :=
  Nat.isDigit_of_mem_toDigits (by norm_num) (by norm_num) h

/-- The part of a name between the last `p` and the extension -/
def pidPart (n : List Char) : List Char := (n.reverse.drop 4).takeWhile (· ≠ 'p')

theorem pidPart_spec (pre : List Char) (p : ℕ) (ext : List Char) (he : ext.length = 4) :
    pidPart (pre ++ 'p' :: (Nat.toDigits 10 p ++ ext)) = (Nat.toDigits 10 p).reverse := by
  unfold pidPart
  have : (pre ++ 'p' :: (Nat.toDigits 10 p ++ ext)).reverse.drop 4 = (Nat.toDigits 10 p).reverse ++ 'p' :: pre.reverse := by
    simp [List.reverse_append, ← he]
  rw [this, List.takeWhile_append_of_pos]
  · simp
  · intro c hc
    have := isDigit_of_toDigits (List.mem_reverse.1 hc)
    simp only [ne_eq, decide_not, Bool.not_eq_eq_eq_not, Bool.not_true, decide_eq_false_iff_not]
    rintro rfl
    exact absurd this (by decide)

theorem toDigits_inj {p q : ℕ} (h : Nat.toDigits 10 p = Nat.toDigits 10 q) : p = q := by
  have := congrArg (fun l => Nat.ofDigitChars 10 l 0) h
  simpa [Nat.ofDigitChars_toDigits] using this

theorem toDigits_getLast (p : ℕ) (l : List Char) : ∃ c, (l ++ Nat.toDigits 10 p).getLast? = some c ∧ c.isDigit = true := by
  have hne : Nat.toDigits 10 p ≠ [] := Nat.toDigits_ne_nil
  refine ⟨(Nat.toDigits 10 p).getLast hne, ?_, isDigit_of_toDigits (List.getLast_mem hne)⟩
  rw [List.getLast?_append, List.getLast?_eq_getLast_of_ne_nil hne]
  rfl

/-- Names of files of different processes differ. -/
theorem flapTemp_disjoint {AF AF' df df' : List Char} {p q : ℕ} (h : p ≠ q) {m : List Char}
    (h1 : FlapTemp AF df (some p) m) (h2 : FlapTemp AF' df' (some q) m) : False := by
  have key : ∀ {AF df : List Char} {p : ℕ} {m : List Char}, FlapTemp AF df (some p) m →
      (m = "NUL_".toList ++ Nat.toDigits 10 p) ∨ (∃ pre ext, m = pre ++ 'p' :: (Nat.toDigits 10 p ++ ext) ∧ ext.length = 4 ∧
        ext.getLast? = some 't') := by
    intro AF df p m h
    unfold FlapTemp coordsFile savedFile scriptFile outputFile at h
    simp only [pidTag_some, pidNul_some] at h
    rcases h with h | h | h | h
    · exact .inr ⟨"profilecoords_".toList, ".dat".toList, by rw [h]; simp, by decide, by decide⟩
    · exact .inr ⟨AF ++ "_".toList ++ df ++ "_Airfoil_".toList, ".txt".toList, by rw [h]; simp, by decide, by decide⟩
    · exact .inr ⟨"xfoil_input_".toList, ".txt".toList, by rw [h]; simp, by decide, by decide⟩
    · exact .inl (by rw [h]; simp)
  have last : ∀ {p q : ℕ} {m : List Char}, m = "NUL_".toList ++ Nat.toDigits 10 p →
      (∃ pre ext, m = pre ++ 'p' :: (Nat.toDigits 10 q ++ ext) ∧ ext.length = 4 ∧ ext.getLast? = some 't') → False := by
    rintro p q m h ⟨pre, ext, h', -, ht⟩
    obtain ⟨c, hc, hd⟩ := toDigits_getLast p "NUL_".toList
    have hx : m.getLast? = some 't' := by
      rw [h', List.getLast?_append, List.getLast?_cons, List.getLast?_append, ht]
      rfl
    rw [h, hc] at hx
    rw [Option.some.inj hx] at hd
    exact absurd hd (by decide)
  rcases key h1 with a | a <;> rcases key h2 with b | b
  · rw [a] at b
    exact h (toDigits_inj (List.append_cancel_left b))
  · exact last a b
  · exact last b a
  · obtain ⟨pre, ext, hm, he, -⟩ := a
    obtain ⟨pre', ext', hm', he', -⟩ := b
    have e := pidPart_spec pre p ext he
    rw [← hm, hm', pidPart_spec pre' q ext' he'] at e
    exact h (toDigits_inj (List.reverse_injective e)).symm

/-- The four names of a call differ. -/
structure FlapNames.Distinct (n : FlapNames) : Prop where
  cs : n.coords ≠ n.saveAF
  ci : n.coords ≠ n.script
  cn : n.coords ≠ n.nul
  si : n.saveAF ≠ n.script
  sn : n.saveAF ≠ n.nul
  i_n : n.script ≠ n.nul

theorem ne_of_reverse_head {a b : List Char} (h : a.getLast? ≠ b.getLast?) : a ≠ b := fun e => h (by rw [e])

theorem getLast?_cons_append_lit (a b : List Char) (c : Char) (h : b.getLast? = some c) : (a ++ b).getLast? = some c := by
  rw [List.getLast?_append, h]; rfl

/-- Two lists with endings of the same length that differ -/
theorem append_ne_append {a b u v : List Char} (hl : u.length = v.length) (h : u ≠ v) : a ++ u ≠ b ++ v := fun e =>
  h (List.append_inj_right' e hl)

theorem flapNames_distinct (AFName df : List Char) (pid : Option ℕ) : (flapNames AFName df pid).Distinct := by
  cases pid with
  | none =>
    unfold flapNames
    refine ⟨?_, ?_, ?_, ?_, ?_, ?_⟩ <;> dsimp only
    · intro e
      rw [show "_Airfoil.txt".toList = "_Airfoi".toList ++ "l.txt".toList by decide, ← List.append_assoc,
        show "profilecoords.dat".toList = "profilecoord".toList ++ "s.dat".toList by decide] at e
      exact append_ne_append (by decide) (by decide) e
    · decide
    · decide
    · intro e
      rw [show "_Airfoil.txt".toList = "_Airfoi".toList ++ "l.txt".toList by decide, ← List.append_assoc,
        show "xfoil_input.txt".toList = "xfoil_inpu".toList ++ "t.txt".toList by decide] at e
      exact append_ne_append (by decide) (by decide) e
    · exact ne_of_reverse_head (by rw [getLast?_cons_append_lit _ _ 't' (by decide)]; decide)
    · decide
  | some p =>
    unfold flapNames
    obtain ⟨c, hc, hd⟩ := toDigits_getLast p "NUL_".toList
    have ht : some 't' ≠ some c := by
      intro e
      rw [← Option.some.inj e] at hd
      exact absurd hd (by decide)
    refine ⟨?_, ?_, ?_, ?_, ?_, ?_⟩ <;> dsimp only
    · exact append_ne_append (by decide) (by decide)
    · exact append_ne_append (by decide) (by decide)
    · exact ne_of_reverse_head (by rw [getLast?_cons_append_lit _ _ 't' (by decide), hc]; exact ht)
    · intro e
      have e := List.append_cancel_right (List.append_cancel_right e)
      rw [show "_Airfoil_p".toList = "_Airf".toList ++ "oil_p".toList by decide, ← List.append_assoc,
        show "xfoil_input_p".toList = "xfoil_in".toList ++ "put_p".toList by decide] at e
      exact append_ne_append (by decide) (by decide) e
    · exact ne_of_reverse_head (by rw [getLast?_cons_append_lit _ _ 't' (by decide), hc]; exact ht)
    · exact ne_of_reverse_head (by rw [getLast?_cons_append_lit _ _ 't' (by decide), hc]; exact ht)

/-! ## Files -/

theorem FS.clear_apply (fs : FS) (n m : List Char) : fs.clear n m = if m = n then none else fs m := by
  unfold FS.clear
  split_ifs with h1 h2 h2
  · simp [FS.remove, h2]
  · simp [FS.remove, h2]
  · subst h2; simpa using h1
  · rfl

theorem FS.put_apply (fs : FS) (n t m : List Char) : fs.put n t m = if m = n then some t else fs m := rfl

theorem flapPrepare_apply (w : FlapWorld α) (AF : List Char) (x y : List α) (t : FlapText) (n : FlapNames) (fs : FS) (m : List Char) :
    flapPrepare w AF x y t n fs m = if m = n.script then some (flapPieces AF t n).flatten else if m = n.coords then
      some (savetxt w.fmt x y) else if m = n.saveAF ∨ m = n.nul then none else fs m := by
  unfold flapPrepare
  simp only [FS.put_apply, FS.clear_apply]
  split_ifs <;> simp_all

theorem flapCleanup_apply (n : FlapNames) (fs : FS) (m : List Char) :
    flapCleanup n fs m = if m = n.coords ∨ m = n.saveAF ∨ m = n.script ∨ m = n.nul then none else fs m := by
  unfold flapCleanup
  simp only [FS.clear_apply]
  split_ifs <;> simp_all

/-! ## Lines -/

theorem linesOf_line {l : List Char} (h : '\n' ∉ l) (rest : List Char) : linesOf (l ++ '\n' :: rest) = l :: linesOf rest := by
  induction l with
  | nil => rw [List.nil_append, linesOf_cons, if_pos rfl]
  | cons c l ih =>
    simp only [List.mem_cons, not_or] at h
    rw [List.cons_append, linesOf_cons, if_neg (Ne.symm h.1), ih h.2]
    rfl

theorem linesOf_savetxt {fmt : α → List Char} (hf : ∀ v, '\n' ∉ fmt v) (x y : List α) :
    linesOf (savetxt fmt x y) = List.zipWith (fun a b => fmt a ++ " ".toList ++ fmt b) x y ++ [[]] := by
  unfold savetxt
  induction x generalizing y with
  | nil => simp [linesOf_nil]
  | cons a x ih =>
    cases y with
    | nil => simp [linesOf_nil]
    | cons b y =>
      simp only [List.zipWith_cons_cons, List.flatten_cons, List.cons_append]
      rw [← ih y, show " ".toList = [' '] by decide, ← linesOf_line (by simp [hf])]
      simp

theorem linesOf_script {AFName : List Char} {t : FlapText} {n : FlapNames} (h1 : '\n' ∉ AFName) (h2 : '\n' ∉ t.delta)
    (h3 : '\n' ∉ t.xc) (h4 : '\n' ∉ t.yt) (h5 : '\n' ∉ t.numNodes) (h6 : '\n' ∉ n.coords) (h7 : '\n' ∉ n.saveAF) :
    linesOf (flapPieces AFName t n).flatten = flapSession AFName t n.coords n.saveAF := by
  have e : (flapPieces AFName t n).flatten = "PLOP ".toList ++ '\n' :: (" G ".toList ++ '\n' :: ([] ++ '\n' :: ("LOAD ".toList ++ '\n' ::
      (n.coords ++ '\n' :: (AFName ++ '\n' :: ("GDES ".toList ++ '\n' :: ("FLAP ".toList ++ '\n' :: (t.xc ++ '\n' ::
      ("999".toList ++ '\n' :: (t.yt ++ '\n' :: (t.delta ++ '\n' :: ("NAME ".toList ++ '\n' :: ((AFName ++ "_".toList ++ t.delta) ++ '\n' ::
      ("EXEC ".toList ++ '\n' :: (" ".toList ++ '\n' :: ("PPAR".toList ++ '\n' :: ("N ".toList ++ '\n' :: (t.numNodes ++ '\n' ::
      ("T ".toList ++ '\n' :: ("0.5".toList ++ '\n' :: ([] ++ '\n' :: ([] ++ '\n' :: ("PSAV ".toList ++ '\n' ::
      ((n.saveAF ++ " ".toList) ++ '\n' :: (" ".toList ++ '\n' :: ("QUIT ".toList ++ '\n' :: [])))))))))))))))))))))))))) := by
    unfold flapPieces
    simp
  rw [e]
  repeat rw [linesOf_line (by first | assumption | decide | (simp [*]))]
  rw [linesOf_nil]
  rfl

theorem column_error {rows : List (List α)} {xs : List α} (h : loadtxtColumn rows 0 = .ok xs) : ∃ ys, loadtxtColumn rows 1 = .ok ys := by
  unfold loadtxtColumn at h ⊢
  split_ifs at h with c
  rw [if_neg c]
  simp only [not_or, List.any_eq_true, decide_eq_true_eq, not_exists, not_and, not_lt] at c
  have c2 := c.2
  clear c h
  induction rows with
  | nil => exact ⟨[], rfl⟩
  | cons r rs ih =>
    obtain ⟨ys, hy⟩ := ih (fun q hq => c2 q (List.mem_cons_of_mem _ hq))
    have hr := c2 r List.mem_cons_self
    exact ⟨r[1] :: ys, by rw [List.mapM_cons, hy, show pyGet r 1 = .ok r[1] by simp [pyGet, show 1 < r.length by omega]]; rfl⟩

theorem column_spec {rows : List (List α)} {k : ℕ} {xs : List α} (h : loadtxtColumn rows k = .ok xs) :
    2 ≤ rows.length ∧ (∀ r ∈ rows, 2 ≤ r.length) ∧ List.Forall₂ (fun r x => r[k]? = some x) rows xs := by
  unfold loadtxtColumn at h
  split_ifs at h with c
  simp only [not_or, List.any_eq_true, decide_eq_true_eq, not_exists, not_and, not_lt] at c
  refine ⟨c.1, c.2, ?_⟩
  clear c
  rw [mapM_forall₂] at h
  refine h.imp ?_
  intro r x hx
  unfold pyGet at hx
  split at hx
  · cases hx
  · rename_i e
    rw [e, Except.ok.inj hx]

theorem no_newline_pidTag (pid : Option ℕ) : '\n' ∉ pidTag pid := by
  cases pid with
  | none => rw [pidTag_none]; simp
  | some p =>
    rw [pidTag_some, List.mem_append, not_or]
    exact ⟨by decide, fun h => absurd (isDigit_of_toDigits h) (by decide)⟩

theorem no_newline_coordsFile (pid : Option ℕ) : '\n' ∉ coordsFile pid := by
  unfold coordsFile
  simp only [List.mem_append, not_or]
  exact ⟨⟨by decide, no_newline_pidTag pid⟩, by decide⟩

theorem no_newline_savedFile {AFName df : List Char} (h1 : '\n' ∉ AFName) (h2 : '\n' ∉ df) (pid : Option ℕ) :
    '\n' ∉ savedFile AFName df pid := by
  unfold savedFile
  simp only [List.mem_append, not_or]
  exact ⟨⟨⟨⟨⟨h1, by decide⟩, h2⟩, by decide⟩, no_newline_pidTag pid⟩, by decide⟩

/-! ## The theorems -/

/-- **C92** A call of `af_flap_coords` for coordinates `x`, `y` of equal length.  XFOIL finds the coordinates of the airfoil in one
file and the commands of the session in another; no file from an earlier call is left where it is going to write, and all other files
are as before.  If the call returns, the new coordinates are the first two columns of the file XFOIL saved, the deflection is recorded,
nothing else of the airfoil has changed, none of the temporary files exists, and the others are as XFOIL left them.  If the call
raises, XFOIL has saved no file, or one that has not at least two rows and two columns of numbers; the airfoil is unchanged.  Not true
is that the temporary files are gone in this case as well (`flap_leftover_false`). -/
theorem flap_coordinates_partial (w : FlapWorld α) (xfoil : List Char) (delta : α) (t : FlapText) (pid : Option ℕ) (a : FlapAf α) (fs : FS)
    (hlen : a.x.length = a.y.length) (hf : ∀ v, '\n' ∉ w.fmt v) (h1 : '\n' ∉ a.AFName) (h2 : '\n' ∉ t.delta) (h3 : '\n' ∉ t.xc)
    (h4 : '\n' ∉ t.yt) (h5 : '\n' ∉ t.numNodes) :
    ∃ (before after : FS) (points session : List Char),
      (∀ m, ¬ FlapTemp a.AFName t.delta pid m → before m = fs m) ∧
      before (coordsFile pid) = some points ∧ linesOf points = List.zipWith (fun p q => w.fmt p ++ " ".toList ++ w.fmt q) a.x a.y ++ [[]] ∧
      before (scriptFile pid) = some session ∧
      linesOf session = flapSession a.AFName t (coordsFile pid) (savedFile a.AFName t.delta pid) ∧
      before (savedFile a.AFName t.delta pid) = none ∧ before (outputFile pid) = none ∧
      after = w.sys (xfoil ++ " < ".toList ++ scriptFile pid ++ " > ".toList ++ outputFile pid) before ∧
      ((∃ text rows xs ys, after (savedFile a.AFName t.delta pid) = some text ∧ w.parse text = .ok rows ∧
          List.Forall₂ (fun (r : List α) v => r[0]? = some v) rows xs ∧ List.Forall₂ (fun (r : List α) v => r[1]? = some v) rows ys ∧
          (flapCoords w xfoil delta t pid a fs).2 =
            ({ AFName := a.AFName, x := a.x, y := a.y, flapX := some xs, flapY := some ys, ctrl := some delta }, .ok ()) ∧
          ∀ m, (FlapTemp a.AFName t.delta pid m → (flapCoords w xfoil delta t pid a fs).1 m = none) ∧
            (¬ FlapTemp a.AFName t.delta pid m → (flapCoords w xfoil delta t pid a fs).1 m = after m)) ∨
        ∃ e, flapCoords w xfoil delta t pid a fs = (after, a, .error e) ∧
          ((after (savedFile a.AFName t.delta pid) = none ∧ e = .osError) ∨
            ∃ text, after (savedFile a.AFName t.delta pid) = some text ∧
              (w.parse text = .error e ∨
                ∃ rows, w.parse text = .ok rows ∧ e = .indexError ∧ (rows.length < 2 ∨ ∃ r ∈ rows, r.length < 2)))) := by
  have hd := flapNames_distinct a.AFName t.delta pid
  set n := flapNames a.AFName t.delta pid with hn
  have ec : n.coords = coordsFile pid := flapNames_coords _ _ _
  have es : n.saveAF = savedFile a.AFName t.delta pid := flapNames_saveAF _ _ _
  have ei : n.script = scriptFile pid := flapNames_script _ _ _
  have en : n.nul = outputFile pid := flapNames_nul _ _ _
  have et : ∀ m, FlapTemp a.AFName t.delta pid m ↔ m = n.coords ∨ m = n.saveAF ∨ m = n.script ∨ m = n.nul := flapNames_temp _ _ _
  have hcall : flapCoords w xfoil delta t pid a fs =
      flapFinish w delta n a (w.sys (flapCommand xfoil n) (flapPrepare w a.AFName a.x a.y t n fs)) := by
    unfold flapCoords
    rw [if_pos hlen]
  rw [hcall]
  clear_value n
  rw [← ec, ← es, ← ei, ← en]
  refine ⟨flapPrepare w a.AFName a.x a.y t n fs, _, savetxt w.fmt a.x a.y, (flapPieces a.AFName t n).flatten, ?_, ?_,
    linesOf_savetxt hf _ _, ?_, ?_, ?_, ?_, rfl, ?_⟩
  · intro m hm
    rw [et] at hm
    simp only [not_or] at hm
    rw [flapPrepare_apply, if_neg hm.2.2.1, if_neg hm.1, if_neg (by simp [hm])]
  · rw [flapPrepare_apply, if_neg hd.ci, if_pos rfl]
  · rw [flapPrepare_apply, if_pos rfl]
  · exact linesOf_script h1 h2 h3 h4 h5 (by rw [ec]; exact no_newline_coordsFile _) (by rw [es]; exact no_newline_savedFile h1 h2 _)
  · rw [flapPrepare_apply, if_neg hd.si, if_neg hd.cs.symm, if_pos (.inl rfl)]
  · rw [flapPrepare_apply, if_neg hd.i_n.symm, if_neg hd.cn.symm, if_pos (.inr rfl)]
  · rw [show xfoil ++ " < ".toList ++ n.script ++ " > ".toList ++ n.nul = flapCommand xfoil n from rfl]
    generalize w.sys (flapCommand xfoil n) (flapPrepare w a.AFName a.x a.y t n fs) = after
    unfold flapFinish
    cases hs : after n.saveAF with
    | none => exact .inr ⟨_, rfl, .inl ⟨rfl, rfl⟩⟩
    | some text =>
      cases hp : w.parse text with
      | error e =>
        refine .inr ⟨e, ?_, .inr ⟨text, rfl, .inl hp⟩⟩
        simp only [hp]
      | ok rows =>
        simp only [hp]
        cases h0 : loadtxtColumn rows 0 with
        | error e =>
          refine .inr ⟨e, rfl, .inr ⟨text, rfl, .inr ⟨rows, hp, ?_⟩⟩⟩
          unfold loadtxtColumn at h0
          by_cases c : rows.length < 2 ∨ rows.any (fun r => r.length < 2)
          · rw [if_pos c] at h0
            refine ⟨(Except.error.inj h0).symm, ?_⟩
            simpa using c
          · obtain ⟨l₁, l₂, r, hr, -, he⟩ := (mapM_error _ _ _).1 (by rw [if_neg c] at h0; exact h0)
            simp only [not_or, List.any_eq_true, decide_eq_true_eq, not_exists, not_and, not_lt] at c
            have := c.2 r (by rw [hr]; simp)
            unfold pyGet at he
            beta_reduce at he
            rw [List.getElem?_eq_getElem (by omega)] at he
            cases he
        | ok xs =>
          obtain ⟨ys, h1'⟩ := column_error h0
          simp only [h1']
          refine .inl ⟨text, rows, xs, ys, rfl, hp, (column_spec h0).2.2, (column_spec h1').2.2, rfl, fun m => ?_⟩
          rw [et, flapCleanup_apply]
          exact ⟨fun hm => if_pos hm, fun hm => if_neg hm⟩

/-- **C92** Coordinates `x`, `y` of different lengths are refused: the airfoil and all files but the temporary ones are unchanged. -/
theorem flap_lengths (w : FlapWorld α) (xfoil : List Char) (delta : α) (t : FlapText) (pid : Option ℕ) (a : FlapAf α) (fs : FS)
    (hlen : a.x.length ≠ a.y.length) :
    (flapCoords w xfoil delta t pid a fs).2 = (a, .error .valueError) ∧
      ∀ m, (flapCoords w xfoil delta t pid a fs).1 m = fs m ∨
        (FlapTemp a.AFName t.delta pid m ∧ (flapCoords w xfoil delta t pid a fs).1 m = none) := by
  have et := flapNames_temp a.AFName t.delta pid
  unfold flapCoords
  rw [if_neg hlen]
  refine ⟨rfl, fun m => ?_⟩
  rw [et]
  generalize flapNames a.AFName t.delta pid = n
  simp only [FS.clear_apply]
  split_ifs <;> simp_all

/-- **C92** Files left by earlier calls under the names of the temporary files have no effect, on the airfoil, the files or the
exception. -/
theorem flap_stale (w : FlapWorld α) (xfoil : List Char) (delta : α) (t : FlapText) (pid : Option ℕ) (a : FlapAf α) (fs fs' : FS)
    (h : ∀ m, ¬ FlapTemp a.AFName t.delta pid m → fs m = fs' m) :
    flapCoords w xfoil delta t pid a fs = flapCoords w xfoil delta t pid a fs' := by
  have et := flapNames_temp a.AFName t.delta pid
  have e1 : ∀ m, flapPrepare w a.AFName a.x a.y t (flapNames a.AFName t.delta pid) fs m =
      flapPrepare w a.AFName a.x a.y t (flapNames a.AFName t.delta pid) fs' m := by
    intro m
    by_cases hm : FlapTemp a.AFName t.delta pid m
    · rw [et] at hm
      simp only [flapPrepare_apply]
      split_ifs <;> first | rfl | simp_all
    · simp only [flapPrepare_apply, h m hm]
  unfold flapCoords
  dsimp only
  rw [funext e1]
  congr 2
  funext m
  simp only [FS.clear_apply]
  by_cases hm : FlapTemp a.AFName t.delta pid m
  · rw [et] at hm
    split_ifs <;> first | rfl | simp_all
  · rw [h m hm]

/-- What another process does leaves the temporary files of this one alone. -/
def LeavesAlone (AFName df : List Char) (pid : Option ℕ) (other : FS → FS) : Prop :=
  ∀ fs m, FlapTemp AFName df pid m → other fs m = fs m

/-- What XFOIL leaves in the temporary files depends only on these files. -/
def ReadsOnlyTemp (w : FlapWorld α) (AFName df xfoil : List Char) (pid : Option ℕ) : Prop :=
  ∀ fs fs', (∀ m, FlapTemp AFName df pid m → fs m = fs' m) → ∀ m, FlapTemp AFName df pid m →
    w.sys (xfoil ++ " < ".toList ++ scriptFile pid ++ " > ".toList ++ outputFile pid) fs m =
      w.sys (xfoil ++ " < ".toList ++ scriptFile pid ++ " > ".toList ++ outputFile pid) fs' m

/-- **C92** Other processes acting on the files before the call, between the preparation of the files and the run of XFOIL, and between
the run and the loading of its result, do not change the coordinates (or the exception) of the call, if they leave its temporary files
alone. -/
theorem flap_interleaved (w : FlapWorld α) (xfoil : List Char) (delta : α) (t : FlapText) (pid : Option ℕ) (a : FlapAf α) (fs : FS)
    (o₁ o₂ o₃ : FS → FS) (h₂ : LeavesAlone a.AFName t.delta pid o₂) (h₃ : LeavesAlone a.AFName t.delta pid o₃)
    (hx : ReadsOnlyTemp w a.AFName t.delta xfoil pid) (hlen : a.x.length = a.y.length) :
    let n := flapNames a.AFName t.delta pid
    (flapFinish w delta n a (o₃ (w.sys (flapCommand xfoil n) (o₂ (flapPrepare w a.AFName a.x a.y t n (o₁ fs)))))).2 =
      (flapCoords w xfoil delta t pid a fs).2 := by
  intro n
  have et : ∀ m, FlapTemp a.AFName t.delta pid m ↔ m = n.coords ∨ m = n.saveAF ∨ m = n.script ∨ m = n.nul :=
    flapNames_temp a.AFName t.delta pid
  have hcmd : flapCommand xfoil n = xfoil ++ " < ".toList ++ scriptFile pid ++ " > ".toList ++ outputFile pid := by
    unfold flapCommand
    rw [flapNames_script, flapNames_nul]
  have fin : ∀ fs fs' : FS, fs n.saveAF = fs' n.saveAF → (flapFinish w delta n a fs).2 = (flapFinish w delta n a fs').2 := by
    intro fs fs' h
    unfold flapFinish
    rw [← h]
    cases fs n.saveAF with
    | none => rfl
    | some text =>
      dsimp only
      cases w.parse text with
      | error e => rfl
      | ok rows =>
        dsimp only
        cases loadtxtColumn rows 0 with
        | error e => rfl
        | ok xs =>
          dsimp only
          cases loadtxtColumn rows 1 <;> rfl
  have hsave : FlapTemp a.AFName t.delta pid n.saveAF := (et _).2 (.inr (.inl rfl))
  unfold flapCoords
  rw [if_pos hlen]
  refine fin _ _ ?_
  rw [h₃ _ _ hsave, hcmd]
  refine hx _ _ (fun m hm => ?_) _ hsave
  rw [h₂ _ _ hm]
  rw [et] at hm
  simp only [flapPrepare_apply]
  split_ifs <;> first | rfl | simp_all

/-- **C92** The steps of a call of another process (with another number, for any airfoil) leave the temporary files alone; for the run
of its XFOIL this has to be assumed of files with other names. -/
theorem flap_other_process (w : FlapWorld α) (xfoil : List Char) (t : FlapText) (p q : ℕ) (hpq : p ≠ q) (b : FlapAf α) (AFName df : List Char)
    (hx : ∀ fs m, ¬ FlapTemp b.AFName t.delta (some q) m →
      w.sys (xfoil ++ " < ".toList ++ scriptFile (some q) ++ " > ".toList ++ outputFile (some q)) fs m = fs m) :
    LeavesAlone AFName df (some p) (flapPrepare w b.AFName b.x b.y t (flapNames b.AFName t.delta (some q))) ∧
      LeavesAlone AFName df (some p) (w.sys (flapCommand xfoil (flapNames b.AFName t.delta (some q)))) ∧
      ∀ delta, LeavesAlone AFName df (some p) fun fs => (flapFinish w delta (flapNames b.AFName t.delta (some q)) b fs).1 := by
  have dis : ∀ m, FlapTemp AFName df (some p) m → ¬ FlapTemp b.AFName t.delta (some q) m := fun m h h' => flapTemp_disjoint hpq h h'
  have et := flapNames_temp b.AFName t.delta (some q)
  have hcmd : flapCommand xfoil (flapNames b.AFName t.delta (some q)) =
      xfoil ++ " < ".toList ++ scriptFile (some q) ++ " > ".toList ++ outputFile (some q) := by
    unfold flapCommand
    rw [flapNames_script, flapNames_nul]
  refine ⟨fun fs m hm => ?_, fun fs m hm => ?_, fun delta fs m hm => ?_⟩
  · have := dis m hm
    rw [et] at this
    simp only [not_or] at this
    rw [flapPrepare_apply, if_neg this.2.2.1, if_neg this.1, if_neg (by simp [this])]
  · rw [hcmd]
    exact hx fs m (dis m hm)
  · have := dis m hm
    rw [et] at this
    have hc : flapCleanup (flapNames b.AFName t.delta (some q)) fs m = fs m := by rw [flapCleanup_apply, if_neg this]
    unfold flapFinish
    beta_reduce
    split
    · rfl
    · split
      · rfl
      · split
        · rfl
        · split
          · rfl
          · exact hc

/-! ## Cases -/

/-- An XFOIL that saves the file of coordinates it is given; numbers are printed as `1`, and a text is read as two rows of which the
first starts with its length -/
noncomputable def copyXfoil (pid : Option ℕ) (saved : List Char) : FlapWorld ℝ where
  sys _ fs := fun m => if m = saved then fs (coordsFile pid) else if m = outputFile pid then some [] else fs m
  fmt _ := ['1']
  parse text := .ok [[(text.length : ℝ), 2], [3, 4]]

/-- An airfoil `ab` with the given points -/
def flapDemo (x y : List ℝ) : FlapAf ℝ := ⟨"ab".toList, x, y, none, none, none⟩

/-- The numbers of a request for five degrees -/
def flapDemoText : FlapText := ⟨"5".toList, "0.8".toList, "0.5".toList, "250".toList⟩

theorem flapCoords_eq (w : FlapWorld α) (xfoil : List Char) (delta : α) (t : FlapText) (pid : Option ℕ) (a : FlapAf α) (fs : FS)
    (hlen : a.x.length = a.y.length) : flapCoords w xfoil delta t pid a fs = flapFinish w delta (flapNames a.AFName t.delta pid) a
      (w.sys (flapCommand xfoil (flapNames a.AFName t.delta pid)) (flapPrepare w a.AFName a.x a.y t (flapNames a.AFName t.delta pid) fs)) := by
  unfold flapCoords
  dsimp only
  rw [if_pos hlen]

theorem flapDemo_run {x y x' y' : List ℝ} (fs : FS) :
    let n := flapNames "ab".toList "5".toList none
    let w := copyXfoil none n.saveAF
    (flapFinish w 5 n (flapDemo x y) (w.sys [] (flapPrepare w "ab".toList x' y' flapDemoText n fs))).2 =
      (⟨"ab".toList, x, y, some [((savetxt w.fmt x' y').length : ℝ), 3], some [2, 4], some 5⟩, .ok ()) := by
  intro n w
  have hd : n.Distinct := flapNames_distinct _ _ _
  have e : w.sys [] (flapPrepare w "ab".toList x' y' flapDemoText n fs) n.saveAF = some (savetxt w.fmt x' y') := by
    show (if n.saveAF = n.saveAF then flapPrepare w "ab".toList x' y' flapDemoText n fs (coordsFile none)
      else if n.saveAF = outputFile none then some [] else flapPrepare w "ab".toList x' y' flapDemoText n fs n.saveAF) = _
    rw [if_pos rfl, ← flapNames_coords "ab".toList "5".toList none, flapPrepare_apply, if_neg hd.ci, if_pos rfl]
  unfold flapFinish
  rw [e]
  simp [w, copyXfoil, loadtxtColumn, pyGet, flapDemo, bind, Except.bind, pure, Except.pure]

/-- The case above: the call for an airfoil with two points returns. -/
example (fs : FS) : (flapCoords (copyXfoil none (savedFile "ab".toList "5".toList none)) [] 5 flapDemoText none (flapDemo [0, 1] [0, 1]) fs).2 =
    (⟨"ab".toList, [0, 1], [0, 1], some [8, 3], some [2, 4], some 5⟩, .ok ()) := by
  have := flapDemo_run (x := [0, 1]) (y := [0, 1]) (x' := [0, 1]) (y' := [0, 1]) fs
  rw [flapCoords_eq _ _ _ _ _ _ _ rfl, ← flapNames_saveAF]
  refine this.trans ?_
  norm_num [savetxt, copyXfoil]

/-- This XFOIL reads and writes only the temporary files. -/
example (AFName df xfoil : List Char) (pid : Option ℕ) : ReadsOnlyTemp (copyXfoil pid (savedFile AFName df pid)) AFName df xfoil pid ∧
    ∀ cmd fs m, ¬ FlapTemp AFName df pid m → (copyXfoil pid (savedFile AFName df pid)).sys cmd fs m = fs m := by
  refine ⟨fun fs fs' h m hm => ?_, fun cmd fs m hm => ?_⟩
  · have h1 := h (coordsFile pid) (.inl rfl)
    have h2 := h m hm
    simp only [copyXfoil, h1, h2]
  · unfold FlapTemp at hm
    simp only [not_or] at hm
    simp only [copyXfoil, if_neg hm.2.1, if_neg hm.2.2.2]

/-- **C92** The temporary files are not gone after every call: when XFOIL cannot be started (the shell only makes the file for its
output), the exception leaves the coordinates and the commands behind. -/
theorem flap_leftover_false : ∃ (w : FlapWorld ℝ) (a : FlapAf ℝ) (fs : FS),
    (flapCoords w [] 5 flapDemoText none a fs).2 = (a, .error .osError) ∧
      ((flapCoords w [] 5 flapDemoText none a fs).1 (coordsFile none)).isSome ∧
      ((flapCoords w [] 5 flapDemoText none a fs).1 (scriptFile none)).isSome := by
  refine ⟨⟨fun _ fs => fs.put (outputFile none) [], fun _ => ['1'], fun _ => .ok []⟩, flapDemo [0, 1] [0, 1], fun _ => none, ?_⟩
  rw [flapCoords_eq _ _ _ _ _ _ _ rfl]
  have hd := flapNames_distinct (flapDemo [0, 1] [0, 1]).AFName flapDemoText.delta none
  have ec := flapNames_coords (flapDemo [0, 1] [0, 1]).AFName flapDemoText.delta none
  have ei := flapNames_script (flapDemo [0, 1] [0, 1]).AFName flapDemoText.delta none
  have en := flapNames_nul (flapDemo [0, 1] [0, 1]).AFName flapDemoText.delta none
  generalize flapNames (flapDemo [0, 1] [0, 1]).AFName flapDemoText.delta none = n at hd ec ei en
  rw [← ec, ← ei, ← en]
  dsimp only
  unfold flapFinish
  rw [FS.put_apply, if_neg hd.sn, flapPrepare_apply, if_neg hd.si, if_neg hd.cs.symm, if_pos (.inl rfl)]
  refine ⟨rfl, ?_, ?_⟩
  · simp [FS.put_apply, flapPrepare_apply, hd.cn, hd.ci]
  · simp [FS.put_apply, flapPrepare_apply, hd.i_n]

/-- **C92** Two calls that run at the same time without `multi_run` or `MPI_run` share the files: if the second prepares its files before
the first runs XFOIL, the first gets the coordinates of the airfoil of the second. -/
theorem flap_shared_false : ∃ (w : FlapWorld ℝ) (a b : FlapAf ℝ), ∀ fs : FS,
    let n := flapNames a.AFName "5".toList none
    (flapFinish w 5 n a (w.sys (flapCommand [] n) (flapPrepare w b.AFName b.x b.y flapDemoText (flapNames b.AFName "5".toList none)
      (flapPrepare w a.AFName a.x a.y flapDemoText n fs)))).2.1.flapX = (flapCoords w [] 5 flapDemoText none b fs).2.1.flapX ∧
    (flapCoords w [] 5 flapDemoText none b fs).2.1.flapX ≠ (flapCoords w [] 5 flapDemoText none a fs).2.1.flapX := by
  refine ⟨copyXfoil none (savedFile "ab".toList "5".toList none), flapDemo [0, 1] [0, 1], flapDemo [0, 1, 2] [0, 1, 2], fun fs => ?_⟩
  intro n
  have h1 := flapDemo_run (x := [0, 1]) (y := [0, 1]) (x' := [0, 1, 2]) (y' := [0, 1, 2])
    (flapPrepare (copyXfoil none (savedFile "ab".toList "5".toList none)) "ab".toList [0, 1] [0, 1] flapDemoText n fs)
  have h2 := flapDemo_run (x := [0, 1]) (y := [0, 1]) (x' := [0, 1]) (y' := [0, 1]) fs
  have h3 := flapDemo_run (x := [0, 1, 2]) (y := [0, 1, 2]) (x' := [0, 1, 2]) (y' := [0, 1, 2]) fs
  dsimp only at h1 h2 h3
  rw [flapNames_saveAF] at h1 h2 h3
  rw [flapCoords_eq _ _ _ _ _ _ _ rfl, flapCoords_eq _ _ _ _ _ _ _ rfl]
  refine ⟨?_, ?_⟩
  · exact (congrArg (fun r : FlapAf ℝ × Except PyErr Unit => r.1.flapX) h1).trans
      (congrArg (fun r : FlapAf ℝ × Except PyErr Unit => r.1.flapX) h3).symm
  · intro e
    have := (congrArg (fun r : FlapAf ℝ × Except PyErr Unit => r.1.flapX) h3).symm.trans (e.trans
      (congrArg (fun r : FlapAf ℝ × Except PyErr Unit => r.1.flapX) h2))
    norm_num [savetxt, copyXfoil] at this

end Verif
