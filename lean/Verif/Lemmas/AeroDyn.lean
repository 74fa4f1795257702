import Verif.Spec.AeroDyn
import Verif.Lemmas.Polar

/-!
# The reader of AeroDyn files, line by line
-/

namespace Verif

/-! ## Words -/

theorem splitOnP_ne_nil {β : Type} (p : β → Bool) (l : List β) : l.splitOnP p ≠ [] := by
  cases l with
  | nil => simp
  | cons a l =>
    rw [List.splitOnP_cons_eq_if_modifyHead]
    split
    · simp
    · have := splitOnP_ne_nil p l
      cases h : l.splitOnP p with
      | nil => exact absurd h this
      | cons => simp

theorem splitFrom_eq (l cur : List Char) :
    splitFrom cur l = ((l.splitOnP isWs).modifyHead (fun w => cur.reverse ++ w)).filter (fun w => !w.isEmpty) := by
  induction l generalizing cur with
  | nil => cases cur <;> simp [splitFrom]
  | cons c l ih =>
    rw [splitFrom, List.splitOnP_cons_eq_if_modifyHead]
    obtain ⟨w, ws, hw⟩ : ∃ w ws, l.splitOnP isWs = w :: ws := List.exists_cons_of_ne_nil (splitOnP_ne_nil _ _)
    by_cases h : isWs c
    · rw [if_pos h, if_pos h, ih, hw]
      cases cur <;> simp
    · rw [if_neg h, if_neg h, ih, hw]
      simp

theorem pySplit_eq (l : List Char) : pySplit l = wordsOf l := by
  rw [pySplit, splitFrom_eq, wordsOf]
  obtain ⟨w, ws, hw⟩ : ∃ w ws, l.splitOnP isWs = w :: ws := List.exists_cons_of_ne_nil (splitOnP_ne_nil _ _)
  simp [hw]

theorem isWs_newline : isWs '\n' = true := by decide

theorem wordsOf_nil : wordsOf [] = [] := by simp [wordsOf]

theorem splitOnP_snoc (p : Char → Bool) (l : List Char) {c : Char} (h : p c = true) :
    (l ++ [c]).splitOnP p = l.splitOnP p ++ [[]] := by
  induction l with
  | nil => simp [List.splitOnP_cons_eq_if_modifyHead, h]
  | cons a l ih =>
    rw [List.cons_append, List.splitOnP_cons_eq_if_modifyHead, List.splitOnP_cons_eq_if_modifyHead, ih]
    obtain ⟨w, ws, hw⟩ : ∃ w ws, l.splitOnP p = w :: ws := List.exists_cons_of_ne_nil (splitOnP_ne_nil _ _)
    by_cases ha : p a <;> simp [hw, ha]

theorem wordsOf_newline (l : List Char) : wordsOf (l ++ ['\n']) = wordsOf l := by
  rw [wordsOf, splitOnP_snoc _ _ isWs_newline]
  simp [wordsOf]

theorem hasEOT_iff (l : List Char) : hasEOT l = true ↔ Marks l := by
  induction l with
  | nil => simp [hasEOT, Marks]
  | cons c l ih =>
    rw [Marks, List.infix_cons_iff, ← Marks, ← ih]
    constructor
    · intro h
      rw [hasEOT.eq_def] at h
      split at h
      · rename_i l' he
        obtain ⟨rfl, rfl⟩ := List.cons.inj he
        left
        exact ⟨l', rfl⟩
      · rename_i he
        obtain ⟨rfl, rfl⟩ := List.cons.inj he
        exact Or.inr h
      · cases h
    · rintro (⟨t, ht⟩ | h)
      · rw [← ht]
        simp [hasEOT]
      · rw [hasEOT.eq_def]
        split
        · rfl
        · rename_i he
          obtain ⟨rfl, rfl⟩ := List.cons.inj he
          exact h
        · rename_i he
          cases he

theorem marks_newline (l : List Char) : Marks (l ++ ['\n']) ↔ Marks l := by
  constructor
  · rintro ⟨a, b, h⟩
    rcases List.eq_nil_or_concat b with rfl | ⟨b', c, rfl⟩
    · exfalso
      have := congrArg List.getLast? h
      simp at this
    · refine ⟨a, b', ?_⟩
      have h' : (a ++ ['E', 'O', 'T'] ++ b') ++ [c] = l ++ ['\n'] := by simpa using h
      exact (List.append_inj' h' rfl).1
  · rintro ⟨a, b, h⟩
    exact ⟨a, b ++ ['\n'], by rw [← h]; simp⟩

/-! ## Lines -/

/-- The lines still to be read -/
def LeftOver (s : List Char) (ls : List (List Char)) : Prop := (s = [] ∧ ls = []) ∨ linesOf s = ls

theorem linesOf_ne_nil (s : List Char) : linesOf s ≠ [] := by
  rw [linesOf, List.splitOn]
  exact splitOnP_ne_nil _ _

theorem linesOf_nil : linesOf [] = [[]] := by simp [linesOf]

theorem linesOf_cons (c : Char) (s : List Char) :
    linesOf (c :: s) = if c = '\n' then [] :: linesOf s else (linesOf s).modifyHead (List.cons c) := by
  rw [linesOf, List.splitOn, List.splitOnP_cons_eq_if_modifyHead]
  by_cases h : c = '\n' <;> simp [h, linesOf, List.splitOn]

/-- What `readline` does to the lines -/
theorem readline_lines (s : List Char) {l : List Char} {ls : List (List Char)} (h : linesOf s = l :: ls) :
    ((readline s).1 = l ∨ (readline s).1 = l ++ ['\n']) ∧ LeftOver (readline s).2 ls := by
  induction s generalizing l ls with
  | nil =>
    rw [linesOf_nil] at h
    obtain ⟨rfl, rfl⟩ := List.cons.inj h
    exact ⟨Or.inl rfl, Or.inl ⟨rfl, rfl⟩⟩
  | cons c s ih =>
    rw [linesOf_cons] at h
    by_cases hc : c = '\n'
    · rw [if_pos hc] at h
      obtain ⟨rfl, rfl⟩ := List.cons.inj h
      simp [readline, hc, LeftOver]
    · rw [if_neg hc] at h
      obtain ⟨w, ws, hw⟩ : ∃ w ws, linesOf s = w :: ws := List.exists_cons_of_ne_nil (linesOf_ne_nil _)
      rw [hw] at h
      obtain ⟨rfl, rfl⟩ := List.cons.inj h
      obtain ⟨h1, h2⟩ := ih hw
      rw [readline, if_neg hc]
      refine ⟨?_, h2⟩
      rcases h1 with h1 | h1
      · left; rw [h1]
      · right; rw [h1]; rfl

theorem LeftOver.words {s : List Char} {l : List Char} {ls : List (List Char)} (h : LeftOver s (l :: ls)) :
    pySplit (readline s).1 = wordsOf l ∧ (hasEOT (readline s).1 = true ↔ Marks l) ∧ LeftOver (readline s).2 ls := by
  rcases h with ⟨-, h⟩ | h
  · cases h
  · obtain ⟨h1, h2⟩ := readline_lines s h
    rw [pySplit_eq, hasEOT_iff]
    rcases h1 with h1 | h1
    · rw [h1]; exact ⟨rfl, Iff.rfl, h2⟩
    · rw [h1, wordsOf_newline, marks_newline]; exact ⟨rfl, Iff.rfl, h2⟩

/-- A line that has a word or an end mark exists. -/
theorem LeftOver.exists {s : List Char} {ls : List (List Char)} (h : LeftOver s ls)
    (hs : pySplit (readline s).1 ≠ [] ∨ hasEOT (readline s).1 = true) : ∃ l ls', ls = l :: ls' := by
  rcases h with ⟨rfl, rfl⟩ | h
  · simp [readline, pySplit, splitFrom, hasEOT] at hs
  · rw [← h]
    exact List.exists_cons_of_ne_nil (linesOf_ne_nil _)

theorem LeftOver.tail {s : List Char} {ls : List (List Char)} (h : LeftOver s ls) : LeftOver (readline s).2 ls.tail := by
  rcases h with ⟨rfl, rfl⟩ | h
  · exact Or.inl ⟨rfl, rfl⟩
  · obtain ⟨l, ls', h'⟩ := List.exists_cons_of_ne_nil (linesOf_ne_nil s)
    rw [h'] at h
    subst h
    exact (readline_lines s h').2

theorem readline_length (s : List Char) : (readline s).1.length + (readline s).2.length = s.length := by
  induction s with
  | nil => rfl
  | cons c s ih =>
    rw [readline]
    split
    · simp; omega
    · simp; omega

theorem readline_progress {s : List Char} (h : s ≠ []) : (readline s).2.length < s.length := by
  cases s with
  | nil => exact absurd rfl h
  | cons c s =>
    have := readline_length s
    rw [readline]
    split
    · simp
    · simp; omega

/-! ## Numbers and rows -/

variable {α : Type}

theorem readFloat_inv (lex : Lex α) {s s' : List Char} {x : α} {ls : List (List Char)} (hl : LeftOver s ls)
    (h : readFloat lex s = .ok (x, s')) : ∃ l ls', ls = l :: ls' ∧ StartsWith lex l x ∧ LeftOver s' ls' := by
  rw [readFloat, readWord] at h
  cases hp : pySplit (readline s).1 with
  | nil => rw [hp] at h; simp [pyFirst, bind, Except.bind] at h
  | cons w ws =>
    obtain ⟨l, ls', rfl⟩ := hl.exists (Or.inl (by rw [hp]; simp))
    obtain ⟨h1, -, h3⟩ := hl.words
    rw [hp] at h
    simp only [pyFirst, bind, Except.bind, pure, Except.pure] at h
    cases hf : lex.toFloat w with
    | error e => rw [hf] at h; simp at h
    | ok y =>
      rw [hf] at h
      simp only [Except.ok.injEq, Prod.mk.injEq] at h
      obtain ⟨rfl, rfl⟩ := h
      exact ⟨l, ls', rfl, ⟨w, ws, by rw [← h1, hp], hf⟩, h3⟩

theorem readFloat_ok (lex : Lex α) {s : List Char} {l : List Char} {ls : List (List Char)} {x : α}
    (hl : LeftOver s (l :: ls)) (hx : StartsWith lex l x) : ∃ s', readFloat lex s = .ok (x, s') ∧ LeftOver s' ls := by
  obtain ⟨h1, -, h3⟩ := hl.words
  obtain ⟨w, ws, hw, hf⟩ := hx
  refine ⟨_, ?_, h3⟩
  rw [readFloat, readWord, h1, hw]
  simp [pyFirst, bind, Except.bind, pure, Except.pure, hf]

theorem readParams_inv (lex : Lex α) (k : ℕ) {s s' : List Char} {ls : List (List Char)} (hl : LeftOver s ls)
    (h : readParams lex k s = .ok s') :
    ∃ ps ls', ls = ps ++ ls' ∧ ps.length = k ∧ (∀ p ∈ ps, ∃ x, StartsWith lex p x) ∧ LeftOver s' ls' := by
  induction k generalizing s ls with
  | zero =>
    simp only [readParams, Except.ok.injEq] at h
    subst h
    exact ⟨[], ls, rfl, rfl, by simp, hl⟩
  | succ k ih =>
    rw [readParams] at h
    cases hf : readFloat lex s with
    | error e => rw [hf] at h; simp [bind, Except.bind] at h
    | ok w =>
      rw [hf] at h
      obtain ⟨x, s1⟩ := w
      obtain ⟨l, ls1, rfl, hx, h1⟩ := readFloat_inv lex hl hf
      obtain ⟨ps, ls', rfl, hk, hp, h2⟩ := ih h1 h
      refine ⟨l :: ps, ls', rfl, by simp [hk], ?_, h2⟩
      intro p hp'
      rcases List.mem_cons.1 hp' with rfl | hp'
      · exact ⟨x, hx⟩
      · exact hp p hp'

theorem readParams_ok (lex : Lex α) (ps : List (List Char)) {s : List Char} {ls : List (List Char)}
    (hl : LeftOver s (ps ++ ls)) (hp : ∀ p ∈ ps, ∃ x, StartsWith lex p x) :
    ∃ s', readParams lex ps.length s = .ok s' ∧ LeftOver s' ls := by
  induction ps generalizing s with
  | nil => exact ⟨s, rfl, hl⟩
  | cons p ps ih =>
    obtain ⟨x, hx⟩ := hp p (by simp)
    obtain ⟨s1, h1, h2⟩ := readFloat_ok lex hl hx
    obtain ⟨s', h3, h4⟩ := ih h2 (fun q hq => hp q (by simp [hq]))
    refine ⟨s', ?_, h4⟩
    rw [List.length_cons, readParams, h1]
    exact h3

theorem mapM_ok_iff {β : Type} (f : β → Except PyErr α) (l : List β) (ys : List α) :
    l.mapM f = .ok ys ↔ l.map f = ys.map Except.ok := by
  induction l generalizing ys with
  | nil => cases ys <;> simp [pure, Except.pure]
  | cons a l ih =>
    rw [List.mapM_cons]
    cases hf : f a with
    | error e => cases ys <;> simp [bind, Except.bind, hf]
    | ok y =>
      cases hm : l.mapM f with
      | error e =>
        cases ys with
        | nil => simp [bind, Except.bind]
        | cons z zs =>
          have := ih zs
          rw [hm] at this
          simp [bind, Except.bind, hf] at this ⊢
          exact fun _ => this
      | ok zs =>
        cases ys with
        | nil => simp [bind, Except.bind, pure, Except.pure]
        | cons z zs' =>
          have := ih zs'
          rw [hm] at this
          simp [bind, Except.bind, pure, Except.pure, hf] at this ⊢
          exact fun _ => this

theorem readRow_iff (lex : Lex α) (line : List Char) (q : AfRow α) :
    readRow lex line = .ok q ↔ ∃ xs, (pySplit line).map lex.toFloat = (q.alpha :: q.cl :: q.cd :: q.cm :: xs).map Except.ok := by
  simp only [← mapM_ok_iff]
  rw [readRow]
  cases h : (pySplit line).mapM lex.toFloat with
  | error e => simp [bind, Except.bind]
  | ok ys =>
    simp only [bind, Except.bind, Except.ok.injEq]
    rcases ys with _ | ⟨a, _ | ⟨b, _ | ⟨c, _ | ⟨d, ys⟩⟩⟩⟩
    · simp [throw, throwThe, MonadExceptOf.throw]
    · simp [throw, throwThe, MonadExceptOf.throw]
    · simp [throw, throwThe, MonadExceptOf.throw]
    · simp [throw, throwThe, MonadExceptOf.throw]
    · obtain ⟨a', b', c', d'⟩ := q
      simp [pure, Except.pure]

theorem readRows_inv (lex : Lex α) (k : ℕ) {s s' : List Char} {ls : List (List Char)} {rows : List (AfRow α)}
    (hl : LeftOver s ls) (h : readRows lex k s = some (.ok (rows, s'))) :
    ∃ rs e ls', ls = rs ++ (e :: ls') ∧ List.Forall₂ (IsRow lex) rs rows ∧ Marks e ∧ LeftOver s' ls' := by
  induction k generalizing s ls rows with
  | zero => simp [readRows] at h
  | succ k ih =>
    rw [readRows] at h
    by_cases he : hasEOT (readline s).1 = true
    · simp only [he, if_true, Option.some.injEq, Except.ok.injEq, Prod.mk.injEq] at h
      obtain ⟨rfl, rfl⟩ := h
      obtain ⟨l, ls', rfl⟩ := hl.exists (Or.inr he)
      obtain ⟨-, h2, h3⟩ := hl.words
      exact ⟨[], l, ls', rfl, .nil, h2.1 he, h3⟩
    · simp only [he] at h
      cases hr : readRow lex (readline s).1 with
      | error e => rw [hr] at h; simp at h
      | ok q =>
        rw [hr] at h
        have hq := (readRow_iff lex _ q).1 hr
        obtain ⟨xs, hxs⟩ := hq
        obtain ⟨l, ls1, rfl⟩ := hl.exists (Or.inl (by intro h0; rw [h0] at hxs; simp at hxs))
        obtain ⟨h1, h2, h3⟩ := hl.words
        cases hk : readRows lex k (readline s).2 with
        | none => rw [hk] at h; simp at h
        | some r =>
          cases r with
          | error e => rw [hk] at h; simp at h
          | ok p =>
            obtain ⟨rows1, s1⟩ := p
            rw [hk] at h
            simp only [Option.some.injEq, Except.ok.injEq, Prod.mk.injEq, Bool.false_eq_true, if_false] at h
            obtain ⟨rfl, rfl⟩ := h
            obtain ⟨rs, e, ls', rfl, hf, hm, ho⟩ := ih h3 hk
            refine ⟨l :: rs, e, ls', rfl, .cons ⟨fun hm => he (h2.2 hm), xs, ?_⟩ hf, hm, ho⟩
            rw [← h1]; exact hxs

theorem readRows_ok (lex : Lex α) (k : ℕ) {s : List Char} {rs ls : List (List Char)} {e : List Char} {rows : List (AfRow α)}
    (hl : LeftOver s (rs ++ (e :: ls))) (hf : List.Forall₂ (IsRow lex) rs rows) (hm : Marks e) (hk : rs.length < k) :
    ∃ s', readRows lex k s = some (.ok (rows, s')) ∧ LeftOver s' ls := by
  induction rs generalizing s rows k with
  | nil =>
    cases hf
    obtain ⟨k, rfl⟩ := Nat.exists_eq_succ_of_ne_zero (by omega : k ≠ 0)
    obtain ⟨-, h2, h3⟩ := hl.words
    exact ⟨_, by rw [readRows]; simp [h2.2 hm], h3⟩
  | cons l rs ih =>
    cases hf with
    | @cons _ q _ rows' hq hf =>
    obtain ⟨k, rfl⟩ := Nat.exists_eq_succ_of_ne_zero (by omega : k ≠ 0)
    obtain ⟨h1, h2, h3⟩ := hl.words
    obtain ⟨hn, xs, hxs⟩ := hq
    have hr : readRow lex (readline s).1 = .ok q := by
      rw [readRow_iff]
      exact ⟨xs, by rw [h1]; exact hxs⟩
    obtain ⟨s', h4, h5⟩ := ih k h3 hf (by simpa using hk)
    refine ⟨s', ?_, h5⟩
    rw [readRows]
    simp [show ¬ hasEOT (readline s).1 = true from fun h => hn (h2.1 h), hr, h4]

/-- The loop ends after at most as many passes as there are characters left, and once more. -/
theorem readRows_stop (lex : Lex α) (k : ℕ) (s : List Char) (hk : s.length < k) :
    ∃ r, readRows lex k s = some r ∧ ∀ k', s.length < k' → readRows lex k' s = some r := by
  induction k generalizing s with
  | zero => omega
  | succ k ih =>
    by_cases he : hasEOT (readline s).1 = true
    · refine ⟨.ok ([], (readline s).2), by rw [readRows]; simp [he], ?_⟩
      rintro (_ | k') h
      · omega
      · rw [readRows]; simp [he]
    · cases hr : readRow lex (readline s).1 with
      | error e =>
        refine ⟨.error e, by rw [readRows]; simp [he, hr], ?_⟩
        rintro (_ | k') h
        · omega
        · rw [readRows]; simp [he, hr]
      | ok q =>
        have hs : s ≠ [] := by
          rintro rfl
          rw [readRow_iff] at hr
          obtain ⟨xs, hxs⟩ := hr
          simp [readline, pySplit, splitFrom] at hxs
        have hp := readline_progress hs
        obtain ⟨r, h1, h2⟩ := ih (readline s).2 (by omega)
        refine ⟨match r with | .error e => .error e | .ok (rows, rest) => .ok (q :: rows, rest), ?_, ?_⟩
        · rw [readRows]; simp only [he, hr, h1]
          cases r <;> rfl
        · rintro (_ | k') h
          · omega
          · rw [readRows]; simp only [he, hr, h2 k' (by omega)]
            cases r <;> rfl

/-! ## Tables -/

theorem polarOfRows_real (t : AfTable ℝ) : polarOfRows (t.millions * Num.nat (10 ^ 6)) t.rows = t.polar := by
  rw [polarOfRows, AfTable.polar]
  simp [num_real]

theorem readTable_inv (lex : Lex ℝ) (k : ℕ) {s s' : List Char} {ls : List (List Char)} {p : Polar ℝ}
    (hl : LeftOver s ls) (h : readTable lex k s = some (.ok (p, s'))) :
    ∃ b ls' t, ls = b ++ ls' ∧ IsTable lex b t ∧ p = t.polar ∧ LeftOver s' ls' := by
  rw [readTable] at h
  cases h1 : readFloat lex s with
  | error e => rw [h1] at h; simp at h
  | ok w =>
    obtain ⟨x, s1⟩ := w
    obtain ⟨l0, ls1, rfl, hx, ho1⟩ := readFloat_inv lex hl h1
    rw [h1] at h
    cases h2 : readParams lex 8 s1 with
    | error e => simp [h2] at h
    | ok s2 =>
      obtain ⟨ps, ls2, rfl, hn, hp, ho2⟩ := readParams_inv lex 8 ho1 h2
      simp only [h2] at h
      cases h3 : readRows lex k s2 with
      | none => simp [h3] at h
      | some r =>
        cases r with
        | error e => simp [h3] at h
        | ok q =>
          obtain ⟨rows, s3⟩ := q
          obtain ⟨rs, e, ls3, rfl, hf, hm, ho3⟩ := readRows_inv lex k ho2 h3
          simp only [h3, Option.some.injEq, Except.ok.injEq, Prod.mk.injEq] at h
          obtain ⟨rfl, rfl⟩ := h
          refine ⟨l0 :: (ps ++ (rs ++ [e])), ls3, ⟨x, rows⟩, by simp, ⟨l0, ps, rs, e, rfl, hx, hn, hp, hf, hm⟩, ?_, ho3⟩
          exact polarOfRows_real ⟨x, rows⟩

theorem readTable_ok (lex : Lex ℝ) (k : ℕ) {s : List Char} {b ls : List (List Char)} {t : AfTable ℝ}
    (hl : LeftOver s (b ++ ls)) (ht : IsTable lex b t) (hk : b.length ≤ k) :
    ∃ s', readTable lex k s = some (.ok (t.polar, s')) ∧ LeftOver s' ls := by
  obtain ⟨l0, ps, rs, e, rfl, hx, hn, hp, hf, hm⟩ := ht
  obtain ⟨s1, h1, ho1⟩ := readFloat_ok lex (ls := ps ++ (rs ++ (e :: ls))) (by simpa using hl) hx
  obtain ⟨s2, h2, ho2⟩ := readParams_ok lex ps ho1 hp
  obtain ⟨s3, h3, ho3⟩ := readRows_ok lex k ho2 hf hm (by simp at hk; omega)
  refine ⟨s3, ?_, ho3⟩
  rw [hn] at h2
  rw [readTable, h1]
  simp only [h2, h3, polarOfRows_real]

theorem readTables_inv (lex : Lex ℝ) (k n : ℕ) {s : List Char} {ls : List (List Char)} {polars : List (Polar ℝ)}
    (hl : LeftOver s ls) (h : readTables lex k n s = some (.ok polars)) :
    ∃ blocks rest tables, ls = blocks.flatten ++ rest ∧ List.Forall₂ (IsTable lex) blocks tables ∧
      polars = tables.map AfTable.polar ∧ tables.length = n := by
  induction n generalizing s ls polars with
  | zero =>
    simp only [readTables, Option.some.injEq, Except.ok.injEq] at h
    subst h
    exact ⟨[], ls, [], rfl, .nil, rfl, rfl⟩
  | succ n ih =>
    rw [readTables] at h
    cases h1 : readTable lex k s with
    | none => simp [h1] at h
    | some r =>
      cases r with
      | error e => simp [h1] at h
      | ok q =>
        obtain ⟨p, s1⟩ := q
        obtain ⟨b, ls1, t, rfl, ht, rfl, ho⟩ := readTable_inv lex k hl h1
        simp only [h1] at h
        cases h2 : readTables lex k n s1 with
        | none => simp [h2] at h
        | some r =>
          cases r with
          | error e => simp [h2] at h
          | ok ps =>
            obtain ⟨bs, rest, ts, rfl, hf, rfl, hn⟩ := ih ho h2
            simp only [h2, Option.some.injEq, Except.ok.injEq] at h
            subst h
            exact ⟨b :: bs, rest, t :: ts, by simp, .cons ht hf, rfl, by simp [hn]⟩

theorem readTables_ok (lex : Lex ℝ) (k : ℕ) {s : List Char} {blocks : List (List (List Char))} {rest : List (List Char)}
    {tables : List (AfTable ℝ)} (hl : LeftOver s (blocks.flatten ++ rest)) (hf : List.Forall₂ (IsTable lex) blocks tables)
    (hk : blocks.flatten.length ≤ k) :
    readTables lex k tables.length s = some (.ok (tables.map AfTable.polar)) := by
  induction hf generalizing s with
  | nil => rfl
  | @cons b t bs ts ht _ ih =>
    simp only [List.flatten_cons, List.length_append] at hk
    obtain ⟨s1, h1, ho⟩ := readTable_ok lex k (ls := bs.flatten ++ rest) (by simpa using hl) ht (by omega)
    have h2 := ih ho (by omega)
    rw [List.length_cons, readTables]
    simp only [h1, h2, List.map_cons]

theorem readRows_rest (lex : Lex α) (k : ℕ) {s s' : List Char} {rows : List (AfRow α)}
    (h : readRows lex k s = some (.ok (rows, s'))) : s'.length ≤ s.length := by
  induction k generalizing s rows with
  | zero => simp [readRows] at h
  | succ k ih =>
    have hp := readline_length s
    rw [readRows] at h
    by_cases he : hasEOT (readline s).1 = true
    · simp only [he, if_true, Option.some.injEq, Except.ok.injEq, Prod.mk.injEq] at h
      obtain ⟨-, rfl⟩ := h
      omega
    · simp only [he] at h
      cases hr : readRow lex (readline s).1 with
      | error e => simp [hr] at h
      | ok q =>
        cases hk : readRows lex k (readline s).2 with
        | none => simp [hr, hk] at h
        | some r =>
          cases r with
          | error e => simp [hr, hk] at h
          | ok p =>
            obtain ⟨rows1, s1⟩ := p
            simp only [hr, hk, Option.some.injEq, Except.ok.injEq, Prod.mk.injEq, Bool.false_eq_true, if_false] at h
            obtain ⟨-, rfl⟩ := h
            have := ih hk
            omega

theorem readFloat_rest (lex : Lex α) {s s' : List Char} {x : α} (h : readFloat lex s = .ok (x, s')) :
    s'.length ≤ s.length := by
  have hp := readline_length s
  rw [readFloat, readWord] at h
  cases hw : pySplit (readline s).1 with
  | nil => simp [hw, pyFirst, bind, Except.bind] at h
  | cons w ws =>
    cases hf : lex.toFloat w with
    | error e => simp [hw, pyFirst, bind, Except.bind, pure, Except.pure, hf] at h
    | ok y =>
      simp only [hw, pyFirst, bind, Except.bind, pure, Except.pure, hf, Except.ok.injEq, Prod.mk.injEq] at h
      obtain ⟨-, rfl⟩ := h
      omega

theorem readParams_rest (lex : Lex α) (k : ℕ) {s s' : List Char} (h : readParams lex k s = .ok s') :
    s'.length ≤ s.length := by
  induction k generalizing s with
  | zero =>
    simp only [readParams, Except.ok.injEq] at h
    subst h
    rfl
  | succ k ih =>
    rw [readParams] at h
    cases hf : readFloat lex s with
    | error e => simp [hf, bind, Except.bind] at h
    | ok w =>
      obtain ⟨x, s1⟩ := w
      simp only [hf, bind, Except.bind] at h
      exact (ih h).trans (readFloat_rest lex hf)

section stop
variable [Num α]

theorem readTable_rest (lex : Lex α) (k : ℕ) {s s' : List Char} {p : Polar α}
    (h : readTable lex k s = some (.ok (p, s'))) : s'.length ≤ s.length := by
  rw [readTable] at h
  cases h1 : readFloat lex s with
  | error e => simp [h1] at h
  | ok w =>
    obtain ⟨x, s1⟩ := w
    cases h2 : readParams lex 8 s1 with
    | error e => simp [h1, h2] at h
    | ok s2 =>
      cases h3 : readRows lex k s2 with
      | none => simp [h1, h2, h3] at h
      | some r =>
        cases r with
        | error e => simp [h1, h2, h3] at h
        | ok q =>
          obtain ⟨rows, s3⟩ := q
          simp only [h1, h2, h3, Option.some.injEq, Except.ok.injEq, Prod.mk.injEq] at h
          obtain ⟨-, rfl⟩ := h
          exact (readRows_rest lex k h3).trans ((readParams_rest lex 8 h2).trans (readFloat_rest lex h1))

theorem readTable_stop (lex : Lex α) (s : List Char) :
    ∃ r, ∀ k, s.length < k → readTable lex k s = some r := by
  cases h1 : readFloat lex s with
  | error e => exact ⟨.error e, fun k _ => by rw [readTable, h1]⟩
  | ok w =>
    obtain ⟨x, s1⟩ := w
    have l1 := readFloat_rest lex h1
    cases h2 : readParams lex 8 s1 with
    | error e => exact ⟨.error e, fun k _ => by simp [readTable, h1, h2]⟩
    | ok s2 =>
      have l2 := readParams_rest lex 8 h2
      obtain ⟨r, -, hr⟩ := readRows_stop lex (s2.length + 1) s2 (by omega)
      cases r with
      | error e => exact ⟨.error e, fun k hk => by simp [readTable, h1, h2, hr k (by omega)]⟩
      | ok q => exact ⟨.ok (polarOfRows (x * Num.nat (10 ^ 6)) q.1, q.2),
          fun k hk => by simp [readTable, h1, h2, hr k (by omega)]⟩

theorem readTables_stop (lex : Lex α) (n : ℕ) (s : List Char) :
    ∃ r, ∀ k, s.length < k → readTables lex k n s = some r := by
  induction n generalizing s with
  | zero => exact ⟨.ok [], fun _ _ => rfl⟩
  | succ n ih =>
    obtain ⟨r, hr⟩ := readTable_stop lex s
    cases r with
    | error e => exact ⟨.error e, fun k hk => by simp [readTables, hr k hk]⟩
    | ok q =>
      obtain ⟨p, s1⟩ := q
      have hl := readTable_rest lex _ (hr (s.length + 1) (by omega))
      obtain ⟨r, hr'⟩ := ih s1
      cases r with
      | error e => exact ⟨.error e, fun k hk => by simp [readTables, hr k hk, hr' k (by omega)]⟩
      | ok ps => exact ⟨.ok (p :: ps), fun k hk => by simp [readTables, hr k hk, hr' k (by omega)]⟩

end stop

end Verif
