import Verif.Lemmas.Extrapolate

/-!
# Extrapolation of polars (C59-C63, C76)
-/

namespace Verif

open Set

/-! ## When it raises -/

theorem extrapolate_error (p : Polar ℝ) (hp : p.WF) (L H cmH : ℝ) (e : Ends ℝ) (hr : p.Rim L H e cmH) (cdmax : ℝ) (AR : Option ℝ)
    (cdmin : ℝ) (n : ℕ) :
    ((cdmin < 0 ∨ 90 < H ∨ L < -90) → p.extrapolate cdmax AR cdmin n = .error .exception) ∧
    (0 ≤ cdmin → H ≤ 90 → -90 ≤ L → p.alpha.length = 1 → (∃ c ∈ p.cm, c ≠ 0) →
      p.extrapolate cdmax AR cdmin n = .error .indexError) := by
  have hE : (⟨deg2rad H, e.clHigh, e.cdHigh, deg2rad L, e.clLow, e.cdLow⟩ : Ends ℝ) = e := by
    rw [← hr.low, ← hr.high]
  have e1 : ((Num.pi : ℝ) / Num.nat 2 < deg2rad H) ↔ 90 < H := by
    simp only [real_pi, real_nat, Nat.cast_ofNat]
    rw [← deg2rad_90]
    exact ⟨fun h => by by_contra h'; exact absurd (deg2rad_le (not_lt.mp h')) (not_le.mpr h), deg2rad_lt⟩
  have e2 : (deg2rad L < -(Num.pi : ℝ) / Num.nat 2) ↔ L < -90 := by
    rw [neg_pi_div, ← deg2rad_90, ← deg2rad_neg]
    exact ⟨fun h => by by_contra h'; exact absurd (deg2rad_le (not_lt.mp h')) (not_le.mpr h), deg2rad_lt⟩
  constructor
  · intro h
    unfold Polar.extrapolate
    by_cases h0 : cdmin < 0
    · rw [if_pos h0]; rfl
    · rw [pyMax_ok p.cd (hp.col_ne .cd), pyLast_of hr.last, pyLast_of hr.cl1, pyLast_of hr.cd1, pyLast_of hr.cm1,
        pyFirst_of hr.first, pyFirst_of hr.cl0, pyFirst_of hr.cd0]
      simp only [bind, Except.bind, pure, Except.pure, if_neg h0]
      by_cases h1 : 90 < H
      · rw [if_pos (e1.mpr h1)]; rfl
      · have h2 : L < -90 := by tauto
        rw [if_neg (fun h => h1 (e1.mp h)), if_pos (e2.mpr h2)]; rfl
  · intro h0 h1 h2 hlen hcm
    have hg := cmGridHigh_eq H h1
    obtain ⟨a, ha⟩ := List.length_eq_one_iff.mp hlen
    have hlcl : p.cl.length = 1 := by rw [← hlen]; exact hp.len .cl
    have hlcm : p.cm.length = 1 := by rw [← hlen]; exact hp.len .cm
    obtain ⟨b, hb⟩ := List.length_eq_one_iff.mp hlcl
    obtain ⟨c, hc⟩ := List.length_eq_one_iff.mp hlcm
    have hany : p.cm.any (fun c => !(c == 0)) = true := by
      obtain ⟨c, hc1, hc2⟩ := hcm
      rw [List.any_eq_true]
      exact ⟨c, hc1, by simpa using hc2⟩
    have hz : cmZero (p.alpha.zip (p.cl.zip p.cm)) = .error .indexError := by
      rw [ha, hb, hc]; rfl
    have ht : ∀ ea ecl ecd, cmExtTable p e L H cmH ea ecl ecd = .error .indexError := by
      intro ea ecl ecd
      unfold cmExtTable
      rw [hg]
      simp only [bind, Except.bind, hany, if_true, hz]
    unfold Polar.extrapolate
    rw [pyMax_ok p.cd (hp.col_ne .cd), pyLast_of hr.last, pyLast_of hr.cl1, pyLast_of hr.cd1, pyLast_of hr.cm1,
      pyFirst_of hr.first, pyFirst_of hr.cl0, pyFirst_of hr.cd0]
    simp only [bind, Except.bind, pure, Except.pure, if_neg (not_lt.mpr h0),
      if_neg (fun h => absurd (e1.mp h) (not_lt.mpr h1)), if_neg (fun h => absurd (e2.mp h) (not_lt.mpr h2))]
    rw [hE, ht]

/-- What `extrapolate` accepts, in terms of the first and last angle. -/
structure Polar.Accepted (p : Polar ℝ) (L H cdmin : ℝ) : Prop where
  wf : p.WF
  first : p.alpha.head? = some L
  last : p.alpha.getLast? = some H
  low : -90 ≤ L
  high : H ≤ 90
  cdmin : 0 ≤ cdmin

theorem ok_cases (p : Polar ℝ) (hp : p.WF) (L H cmH : ℝ) (e : Ends ℝ) (hr : p.Rim L H e cmH) (cdmax : ℝ) (AR : Option ℝ)
    (cdmin : ℝ) (n : ℕ) (q : Polar ℝ) (h : p.extrapolate cdmax AR cdmin n = .ok q) :
    0 ≤ cdmin ∧ H ≤ 90 ∧ -90 ≤ L ∧ (2 ≤ p.alpha.length ∨ ∀ c ∈ p.cm, c = 0) := by
  have he := extrapolate_error p hp L H cmH e hr cdmax AR cdmin n
  have h1 : 0 ≤ cdmin ∧ H ≤ 90 ∧ -90 ≤ L := by
    by_contra hc
    have : cdmin < 0 ∨ 90 < H ∨ L < -90 := by
      by_contra h'
      push Not at h'
      exact hc h'
    rw [he.1 this] at h
    exact absurd h (by simp)
  refine ⟨h1.1, h1.2.1, h1.2.2, ?_⟩
  by_contra hc
  push Not at hc
  have hl : p.alpha.length = 1 := by
    have : p.alpha.length ≠ 0 := fun h => hp.ne (List.length_eq_zero_iff.mp h)
    omega
  rw [he.2 h1.1 h1.2.1 h1.2.2 hl hc.2] at h
  exact absurd h (by simp)

/-- **C62** `extrapolate` raises exactly for a negative `cdmin`, data beyond ±90 degrees, or (an `IndexError`) a single row with a
non-zero moment coefficient (partial: the last case is one more than the property names). -/
theorem extrapolate_raises_partial (p : Polar ℝ) (hp : p.WF) (L H : ℝ) (hL : p.alpha.head? = some L) (hH : p.alpha.getLast? = some H)
    (cdmax : ℝ) (AR : Option ℝ) (cdmin : ℝ) (n : ℕ) :
    ((∃ err, p.extrapolate cdmax AR cdmin n = .error err) ↔
      cdmin < 0 ∨ 90 < H ∨ L < -90 ∨ (p.alpha.length = 1 ∧ ∃ c ∈ p.cm, c ≠ 0)) ∧
    (cdmin < 0 ∨ 90 < H ∨ L < -90 → p.extrapolate cdmax AR cdmin n = .error .exception) := by
  obtain ⟨L', H', e, cmH, hr⟩ := exists_rim p hp
  obtain rfl : L' = L := by have := hr.first; rw [hL] at this; exact (Option.some.inj this).symm
  obtain rfl : H' = H := by have := hr.last; rw [hH] at this; exact (Option.some.inj this).symm
  have he := extrapolate_error p hp L' H' cmH e hr cdmax AR cdmin n
  refine ⟨⟨fun ⟨err, h⟩ => ?_, fun h => ?_⟩, he.1⟩
  · by_contra hc
    push Not at hc
    obtain ⟨h1, h2, h3, h4⟩ := hc
    have hor : 2 ≤ p.alpha.length ∨ ∀ c ∈ p.cm, c = 0 := by
      by_cases hl : p.alpha.length = 1
      · exact .inr (h4 hl)
      · have : p.alpha.length ≠ 0 := fun h => hp.ne (List.length_eq_zero_iff.mp h)
        exact .inl (by omega)
    obtain ⟨_, _, _, _, _, hok⟩ := extrapolate_ok p hp L' H' cmH e hr cdmax AR cdmin n h1 h2 h3 hor
    rw [hok] at h
    exact absurd h (by simp)
  · by_cases h' : cdmin < 0 ∨ 90 < H' ∨ L' < -90
    · exact ⟨_, he.1 h'⟩
    · push Not at h'
      have h4 : p.alpha.length = 1 ∧ ∃ c ∈ p.cm, c ≠ 0 := by
        rcases h with h | h | h | h
        · linarith [h'.1]
        · linarith [h'.2.1]
        · linarith [h'.2.2]
        · exact h
      exact ⟨_, he.2 h'.1 h'.2.1 h'.2.2 h4.1 h4.2⟩

/-- **C62** One row inside ±90 degrees with a moment coefficient is rejected too, with `IndexError`. -/
theorem extrapolate_raises_false : ∃ p : Polar ℝ, p.WF ∧ (∀ a ∈ p.alpha, -90 ≤ a ∧ a ≤ 90) ∧
    p.extrapolate 1 none 0 15 = .error .indexError := by
  let p : Polar ℝ := ⟨1, [10], [1], [1], [1]⟩
  have hp : p.WF := ⟨by simp [p], by simp [p], by intro c; cases c <;> rfl⟩
  refine ⟨p, hp, by simp [p]; norm_num, ?_⟩
  exact (extrapolate_error p hp 10 10 1 ⟨deg2rad 10, 1, 1, deg2rad 10, 1, 1⟩
    ⟨rfl, rfl, rfl, rfl, rfl, rfl, rfl, rfl, rfl⟩ 1 none 0 15).2 (le_refl _) (by norm_num) (by norm_num) rfl
    ⟨1, by simp [p], one_ne_zero⟩

/-! ## The data are kept -/

theorem extPolar_len (p : Polar ℝ) (hp : p.WF) (v : VitPar ℝ) (e : Ends ℝ) (cdmin : ℝ) (n : ℕ) (cm : List ℝ) :
    (extPolar p v e cdmin n cm).cl.length = (extPolar p v e cdmin n cm).alpha.length ∧
    (extPolar p v e cdmin n cm).cd.length = (extPolar p v e cdmin n cm).alpha.length := by
  have hcl : p.cl.length = p.alpha.length := hp.len .cl
  have hcd : p.cd.length = p.alpha.length := hp.len .cd
  constructor <;> simp [extPolar, hcl, hcd]

theorem block_get {β : Type} (A B C : List β) (i : ℕ) (hi : i < B.length) : (A ++ B ++ C)[A.length + i]? = B[i]? := by
  rw [List.append_assoc, List.getElem?_append_right (by omega), Nat.add_sub_cancel_left, List.getElem?_append_left hi]

/-- **C59** The extrapolated polar has the Reynolds number of the original, starts at -180 degrees, ends at 180 degrees, has complete
columns, contains the original angles and coefficients as a contiguous block (the drag raised to `cdmin` where it is lower), and its
drag is nowhere below `cdmin`. -/
theorem extrapolate_keeps (p q : Polar ℝ) (hp : p.WF) (cdmax : ℝ) (AR : Option ℝ) (cdmin : ℝ) (n : ℕ) (hn : 2 ≤ n)
    (h : p.extrapolate cdmax AR cdmin n = .ok q) :
    q.Re = p.Re ∧ q.alpha.head? = some (-180) ∧ q.alpha.getLast? = some 180 ∧ (∀ c, (q.col c).length = q.alpha.length) ∧
    (∃ k, ∀ i < p.alpha.length, q.alpha[k + i]? = p.alpha[i]? ∧ q.cl[k + i]? = p.cl[i]? ∧
      q.cd[k + i]? = (p.cd[i]?).map (fun c => max c cdmin)) ∧
    ∀ c ∈ q.cd, cdmin ≤ c := by
  obtain ⟨L, H, e, cmH, hr⟩ := exists_rim p hp
  obtain ⟨h0, h1, h2, h3⟩ := ok_cases p hp L H cmH e hr cdmax AR cdmin n q h
  obtain ⟨g2, outs, hg, hlen, _, hok⟩ := extrapolate_ok p hp L H cmH e hr cdmax AR cdmin n h0 h1 h2 h3
  rw [hok] at h
  obtain rfl := Except.ok.inj h
  set v := vitPar e (effCdmax p cdmax AR) with hv
  have hcl : p.cl.length = p.alpha.length := hp.len .cl
  have hcd : p.cd.length = p.alpha.length := hp.len .cd
  refine ⟨rfl, ?_, ?_, fun c => ?_, ⟨(extBefore v e n).length, fun i hi => ⟨?_, ?_, ?_⟩⟩, ?_⟩
  · simp only [extPolar, extBefore, ext7, List.map_append, List.map_map, List.append_assoc, List.head?_append]
    rw [List.head?_map, linspace_head _ _ n hn]
    simp only [Option.map_some, Function.comp, real_pi, rad2deg_neg_pi, Option.some_or]
  · simp only [extPolar, extAfter, ext3, List.map_append, List.map_map, List.getLast?_append]
    have hd : ((npLinspace ((Num.pi : ℝ) - e.alphaHigh) Num.pi n).drop 1).getLast? = some Real.pi := by
      rw [List.getLast?_drop, if_neg (by rw [linspace_length]; omega), linspace_last _ _ n hn, real_pi]
    rw [List.getLast?_map, hd]
    simp only [Option.map_some, Function.comp, rad2deg_pi, Option.some_or]
  · cases c
    · exact (extPolar_len p hp v e cdmin n _).1
    · exact (extPolar_len p hp v e cdmin n _).2
    · simp [extPolar, Polar.col]
  · have := block_get ((extBefore v e n).map (fun r => rad2deg r.alpha)) p.alpha ((extAfter v e n).map (fun r => rad2deg r.alpha)) i hi
    rwa [List.length_map] at this
  · have := block_get ((extBefore v e n).map ExtRow.cl) p.cl ((extAfter v e n).map ExtRow.cl) i (by omega)
    rwa [List.length_map] at this
  · have := block_get ((extBefore v e n).map (fun r => max r.cd cdmin)) (p.cd.map (fun c => max c cdmin))
      ((extAfter v e n).map (fun r => max r.cd cdmin)) i (by simp; omega)
    rw [List.length_map, List.getElem?_map] at this
    exact this
  · intro c hc
    simp only [extPolar, List.mem_append, List.mem_map] at hc
    rcases hc with (⟨r, _, rfl⟩ | ⟨r, _, rfl⟩) | ⟨r, _, rfl⟩ <;> exact le_max_right _ _

/-- A polar that is extrapolated on both sides. -/
def cambered : Polar ℝ := ⟨1, [-5, 0, 15], [0, 1, 2], [1, 1, 1], [1, 2, 3]⟩

theorem cambered_wf : cambered.WF :=
  ⟨by simp [cambered], by norm_num [cambered], by intro c; cases c <;> rfl⟩

/-- The hypotheses of the theorems are met. -/
theorem cambered_ok : ∃ q, cambered.extrapolate 1 none (1 / 1000) 15 = .ok q := by
  obtain ⟨_, _, _, _, _, h⟩ := extrapolate_ok cambered cambered_wf (-5) 15 3 ⟨deg2rad 15, 2, 1, deg2rad (-5), 0, 1⟩
    ⟨rfl, rfl, rfl, rfl, rfl, rfl, rfl, rfl, rfl⟩ 1 none (1 / 1000) 15 (by norm_num) (by norm_num) (by norm_num)
    (.inl (by simp [cambered]))
  exact ⟨_, h⟩

example : ∃ q, cambered.extrapolate 1 none (1 / 1000) 15 = .ok q ∧ q.alpha.head? = some (-180) ∧ q.alpha.getLast? = some 180 := by
  obtain ⟨q, h⟩ := cambered_ok
  have := extrapolate_keeps cambered q cambered_wf 1 none (1 / 1000) 15 (by norm_num) h
  exact ⟨q, h, this.2.1, this.2.2.1⟩

/-! ## Continuity -/

theorem rim_good (p : Polar ℝ) (hp : p.WF) (L H cmH : ℝ) (e : Ends ℝ) (hr : p.Rim L H e cmH) (h1 : 1 / 10000 ≤ deg2rad H)
    (h2 : H < 90) (h3 : -90 ≤ L) : e.Good := by
  refine ⟨by rw [hr.high]; exact h1, ?_, ?_, ?_⟩
  · rw [hr.high, ← deg2rad_90]; exact deg2rad_lt h2
  · rw [hr.low, ← deg2rad_90, ← deg2rad_neg]; exact deg2rad_le h3
  · rw [hr.low, hr.high]
    refine deg2rad_le ?_
    have hf := hr.first
    have hl := hr.last
    have hi := hp.inc
    cases ha : p.alpha with
    | nil => exact absurd ha hp.ne
    | cons a l =>
      rw [ha] at hf hl hi
      obtain rfl : a = L := by simpa using hf
      rcases List.mem_cons.mp (List.mem_of_getLast? hl) with h | h
      · exact h.ge
      · exact ((List.pairwise_cons.mp hi).1 H h).le

theorem clBefore_low (v : VitPar ℝ) (e : Ends ℝ) (he : e.Good) (h4 : -e.alphaHigh < e.alphaLow) :
    clBefore v e e.alphaLow = e.clLow ∧ cdBefore v e e.alphaLow = e.cdLow := by
  have hp := he.pos
  have hl := he.lt
  have h5 : alpha5max e = -e.alphaHigh := by simp [alpha5max, not_le.mpr h4]
  have h1 : ¬ e.alphaLow ≤ -Real.pi + e.alphaHigh := by push Not; linarith
  have h2 : ¬ e.alphaLow ≤ -(Real.pi / 2) := by push Not; linarith
  have h3 : ¬ e.alphaLow ≤ -e.alphaHigh := not_le.mpr h4
  constructor
  · simp only [clBefore, h5, if_neg h1, if_neg h2, if_neg h3]
    rw [div_self (by linarith)]
    ring
  · simp only [cdBefore, h5, if_neg h2, if_neg h3]
    simp

/-- **C60** The extrapolated rows sample curves that do not depend on the number of points: on either side of the data these are
continuous up to ±180 degrees (so in particular at ±90 degrees), they agree at ±180 degrees, and at the ends of the data they take the
values of the data.  (At the low end the latter needs data that do not reach below `-alpha_high`.) -/
theorem extrapolate_continuous (p : Polar ℝ) (hp : p.WF) (L H : ℝ) (hL : p.alpha.head? = some L) (hH : p.alpha.getLast? = some H)
    (h1 : 1 / 10000 ≤ deg2rad H) (h2 : H < 90) (h3 : -90 ≤ L) (cdmax : ℝ) (AR : Option ℝ) :
    ∃ clB cdB clA cdA : ℝ → ℝ,
      ContinuousOn clB (Icc (-180) L) ∧ ContinuousOn cdB (Icc (-180) L) ∧
      ContinuousOn clA (Icc H 180) ∧ ContinuousOn cdA (Icc H 180) ∧
      p.cl.getLast? = some (clA H) ∧ p.cd.getLast? = some (cdA H) ∧
      (-H < L → p.cl.head? = some (clB L) ∧ p.cd.head? = some (cdB L)) ∧
      clB (-180) = clA 180 ∧ cdB (-180) = cdA 180 ∧
      ∀ (cdmin : ℝ) (n : ℕ) (q : Polar ℝ), 2 ≤ n → p.extrapolate cdmax AR cdmin n = .ok q → ∃ k,
        (∀ i < p.alpha.length, q.alpha[k + i]? = p.alpha[i]?) ∧
        (∀ i < k, ∃ a, q.alpha[i]? = some a ∧ -180 ≤ a ∧ a ≤ L ∧ q.cl[i]? = some (clB a) ∧ q.cd[i]? = some (max (cdB a) cdmin)) ∧
        ∀ i, k + p.alpha.length ≤ i → i < q.alpha.length →
          ∃ a, q.alpha[i]? = some a ∧ H < a ∧ a ≤ 180 ∧ q.cl[i]? = some (clA a) ∧ q.cd[i]? = some (max (cdA a) cdmin) := by
  obtain ⟨L', H', e, cmH, hr⟩ := exists_rim p hp
  obtain rfl : L' = L := by have := hr.first; rw [hL] at this; exact (Option.some.inj this).symm
  obtain rfl : H' = H := by have := hr.last; rw [hH] at this; exact (Option.some.inj this).symm
  have he := rim_good p hp L' H' cmH e hr h1 h2 h3
  set v := vitPar e (effCdmax p cdmax AR) with hv
  have hdeg : Continuous (fun x : ℝ => deg2rad x) := by
    simp only [num_real]; fun_prop
  have hd180 : deg2rad (180 : ℝ) = Real.pi := by rw [← rad2deg_pi, deg_rad]
  have hd180' : deg2rad (-180 : ℝ) = -Real.pi := by rw [← rad2deg_neg_pi, deg_rad]
  have hmapB : MapsTo (fun x : ℝ => deg2rad x) (Icc (-180) L') (Icc (-Real.pi) e.alphaLow) := fun x hx =>
    ⟨by rw [← hd180']; exact deg2rad_le hx.1, by rw [hr.low]; exact deg2rad_le hx.2⟩
  have hmapA : MapsTo (fun x : ℝ => deg2rad x) (Icc H' 180) (Icc e.alphaHigh Real.pi) := fun x hx =>
    ⟨by rw [hr.high]; exact deg2rad_le hx.1, by rw [← hd180]; exact deg2rad_le hx.2⟩
  have hp0 := he.pos
  have hl0 := he.lt
  refine ⟨fun x => clBefore v e (deg2rad x), fun x => cdBefore v e (deg2rad x), fun x => clAfter v e (deg2rad x),
    fun x => cdAfter v (deg2rad x), (clBefore_continuousOn e he _).comp hdeg.continuousOn hmapB,
    (cdBefore_continuousOn e he _).comp hdeg.continuousOn hmapB, (clAfter_continuousOn e he _).comp hdeg.continuousOn hmapA,
    (cdAfter_continuousOn e he _).comp hdeg.continuousOn hmapA, ?_, ?_, ?_, ?_, ?_, ?_⟩
  · simp only [← hr.high]
    rw [hr.cl1, clAfter, if_pos hl0.le, hv, viterna_high e _ _ hp0 hl0]
    simp
  · simp only [← hr.high]
    rw [hr.cd1, cdAfter, if_pos hl0.le, hv, viterna_high e _ _ hp0 hl0]
  · intro h4
    have h4' : -e.alphaHigh < e.alphaLow := by rw [hr.high, hr.low, ← deg2rad_neg]; exact deg2rad_lt h4
    simp only [← hr.low]
    rw [(clBefore_low v e he h4').1, (clBefore_low v e he h4').2]
    exact ⟨hr.cl0, hr.cd0⟩
  · simp only [hd180, hd180']
    have := Real.pi_pos
    rw [clBefore, if_pos (by linarith), clAfter, if_neg (by linarith), if_neg (by linarith)]
    simp
  · simp only [hd180, hd180']
    have := Real.pi_pos
    rw [cdBefore, if_pos (by linarith), cdAfter, if_neg (by linarith)]
    simp
  · intro cdmin n q hn hq
    obtain ⟨h0, h1', h2', h3'⟩ := ok_cases p hp L' H' cmH e hr cdmax AR cdmin n q hq
    obtain ⟨g2, outs, hg, hlen, _, hok⟩ := extrapolate_ok p hp L' H' cmH e hr cdmax AR cdmin n h0 h1' h2' h3'
    rw [← hv] at hok
    rw [hok] at hq
    obtain rfl := Except.ok.inj hq
    have hcl : p.cl.length = p.alpha.length := hp.len .cl
    have hcd : p.cd.length = p.alpha.length := hp.len .cd
    refine ⟨(extBefore v e n).length, fun i hi => ?_, fun i hi => ?_, fun i hi hi' => ?_⟩
    · have := block_get ((extBefore v e n).map (fun r => rad2deg r.alpha)) p.alpha
        ((extAfter v e n).map (fun r => rad2deg r.alpha)) i hi
      rwa [List.length_map] at this
    · obtain ⟨r, hri⟩ : ∃ r, (extBefore v e n)[i]? = some r := ⟨_, List.getElem?_eq_getElem hi⟩
      have hrow := before_row v e he n hn r (List.mem_of_getElem? hri)
      refine ⟨rad2deg r.alpha, ?_, ?_, ?_, ?_, ?_⟩
      · simp only [extPolar]
        rw [List.append_assoc, List.getElem?_append_left (by simpa using hi), List.getElem?_map, hri]
        rfl
      · rw [← rad2deg_neg_pi]; exact rad2deg_le hrow.1
      · rw [← rad_deg L', ← hr.low]; exact rad2deg_le hrow.2.1
      · simp only [extPolar, deg_rad]
        rw [List.append_assoc, List.getElem?_append_left (by simpa using hi), List.getElem?_map, hri, ← hrow.2.2.1]
        rfl
      · simp only [extPolar, deg_rad]
        rw [List.append_assoc, List.getElem?_append_left (by simpa using hi), List.getElem?_map, hri, ← hrow.2.2.2]
        rfl
    · set j := i - ((extBefore v e n).length + p.alpha.length) with hj
      have hjlt : j < (extAfter v e n).length := by
        simp only [extPolar, List.length_append, List.length_map] at hi'
        omega
      obtain ⟨r, hri⟩ : ∃ r, (extAfter v e n)[j]? = some r := ⟨_, List.getElem?_eq_getElem hjlt⟩
      have hrow := after_row v e he n hn r (List.mem_of_getElem? hri)
      refine ⟨rad2deg r.alpha, ?_, ?_, ?_, ?_, ?_⟩
      · simp only [extPolar]
        rw [List.getElem?_append_right (by simpa using hi), List.getElem?_map]
        simp only [List.length_append, List.length_map, ← hj, hri]
        rfl
      · rw [← rad_deg H', ← hr.high]; exact rad2deg_lt hrow.1
      · rw [← rad2deg_pi]; exact rad2deg_le hrow.2.1
      · simp only [extPolar, deg_rad]
        rw [List.getElem?_append_right (by simpa [hcl] using hi), List.getElem?_map]
        simp only [List.length_append, List.length_map, hcl, ← hj, hri, ← hrow.2.2.1]
        rfl
      · simp only [extPolar, deg_rad]
        rw [List.getElem?_append_right (by simpa [hcd] using hi), List.getElem?_map]
        simp only [List.length_append, List.length_map, hcd, ← hj, hri, ← hrow.2.2.2]
        rfl

/-! ## Order of the angles -/

/-- **C61** The angles of the result are strictly increasing when the data end between 0 and 90 degrees and start above the negative of
their end (partial: see `extrapolate_duplicate` for the other polars). -/
theorem extrapolate_increasing_partial (p q : Polar ℝ) (hp : p.WF) (L H : ℝ) (hL : p.alpha.head? = some L)
    (hH : p.alpha.getLast? = some H) (h1 : 1 / 10000 ≤ deg2rad H) (h2 : H < 90) (h3 : -H < L) (cdmax : ℝ) (AR : Option ℝ)
    (cdmin : ℝ) (n : ℕ) (hn : 2 ≤ n) (h : p.extrapolate cdmax AR cdmin n = .ok q) : q.alpha.Pairwise (· < ·) := by
  obtain ⟨L', H', e, cmH, hr⟩ := exists_rim p hp
  obtain rfl : L' = L := by have := hr.first; rw [hL] at this; exact (Option.some.inj this).symm
  obtain rfl : H' = H := by have := hr.last; rw [hH] at this; exact (Option.some.inj this).symm
  have he := rim_good p hp L' H' cmH e hr h1 h2 (by linarith)
  obtain ⟨h0, h1', h2', h3'⟩ := ok_cases p hp L' H' cmH e hr cdmax AR cdmin n q h
  obtain ⟨g2, outs, hg, hlen, _, hok⟩ := extrapolate_ok p hp L' H' cmH e hr cdmax AR cdmin n h0 h1' h2' h3'
  rw [hok] at h
  obtain rfl := Except.ok.inj h
  set v := vitPar e (effCdmax p cdmax AR) with hv
  have h4' : -e.alphaHigh < e.alphaLow := by rw [hr.high, hr.low, ← deg2rad_neg]; exact deg2rad_lt h3
  have hB := before_strict v e he h4' n hn
  have hA := after_strict v e he n hn
  have mapdeg : ∀ l : List (ExtRow ℝ), l.map (fun r => rad2deg r.alpha) = (l.map ExtRow.alpha).map rad2deg := fun l => by
    rw [List.map_map]; rfl
  have hfirst : ∀ a ∈ p.alpha, L' ≤ a := by
    intro a ha
    have hi := hp.inc
    cases hal : p.alpha with
    | nil => rw [hal] at ha; simp at ha
    | cons b l =>
      rw [hal] at ha hi hL
      obtain rfl : b = L' := by simpa using hL
      rcases List.mem_cons.mp ha with rfl | ha
      · exact le_refl _
      · exact ((List.pairwise_cons.mp hi).1 a ha).le
  have hlast : ∀ a ∈ p.alpha, a ≤ H' := by
    intro a ha
    obtain ⟨m, hm⟩ := List.getLast?_eq_some_iff.mp hH
    have hi := hp.inc
    rw [hm] at ha hi
    rcases List.mem_append.mp ha with ha | ha
    · exact ((List.pairwise_append.mp hi).2.2 a ha H' (by simp)).le
    · simp at ha; exact ha.le
  simp only [extPolar, mapdeg]
  refine List.pairwise_append.mpr ⟨List.pairwise_append.mpr ⟨?_, hp.inc, ?_⟩, ?_, ?_⟩
  · rw [List.pairwise_map]; exact hB.1.imp fun h => rad2deg_lt h
  · intro a ha b hb
    obtain ⟨x, hx, rfl⟩ := List.mem_map.mp ha
    have := rad2deg_lt (hB.2 x hx)
    rw [hr.low, rad_deg] at this
    exact lt_of_lt_of_le this (hfirst b hb)
  · rw [List.pairwise_map]; exact hA.1.imp fun h => rad2deg_lt h
  · intro a ha b hb
    obtain ⟨x, hx, rfl⟩ := List.mem_map.mp hb
    have hx := rad2deg_lt (hA.2 x hx)
    rw [hr.high, rad_deg] at hx
    rcases List.mem_append.mp ha with ha | ha
    · obtain ⟨y, hy, rfl⟩ := List.mem_map.mp ha
      have hy := rad2deg_lt (hB.2 y hy)
      rw [hr.low, rad_deg] at hy
      have : L' ≤ H' := hlast L' (List.mem_of_head? hL)
      linarith
    · exact lt_of_le_of_lt (hlast a ha) hx

/-- **C61** Data reaching down to the negative of their last angle (every symmetric table) give the first data angle twice. -/
theorem extrapolate_duplicate (p q : Polar ℝ) (hp : p.WF) (L H : ℝ) (hL : p.alpha.head? = some L)
    (hH : p.alpha.getLast? = some H) (h3 : L ≤ -H) (cdmax : ℝ) (AR : Option ℝ)
    (cdmin : ℝ) (n : ℕ) (hn : 2 ≤ n) (h : p.extrapolate cdmax AR cdmin n = .ok q) :
    ∃ i, q.alpha[i]? = some L ∧ q.alpha[i + 1]? = some L := by
  obtain ⟨L', H', e, cmH, hr⟩ := exists_rim p hp
  obtain rfl : L' = L := by have := hr.first; rw [hL] at this; exact (Option.some.inj this).symm
  obtain rfl : H' = H := by have := hr.last; rw [hH] at this; exact (Option.some.inj this).symm
  obtain ⟨h0, h1', h2', h3'⟩ := ok_cases p hp L' H' cmH e hr cdmax AR cdmin n q h
  obtain ⟨g2, outs, hg, hlen, _, hok⟩ := extrapolate_ok p hp L' H' cmH e hr cdmax AR cdmin n h0 h1' h2' h3'
  rw [hok] at h
  obtain rfl := Except.ok.inj h
  set v := vitPar e (effCdmax p cdmax AR) with hv
  have h4' : e.alphaLow ≤ -e.alphaHigh := by rw [hr.high, hr.low, ← deg2rad_neg]; exact deg2rad_le h3
  have h5 : alpha5max e = e.alphaLow := by simp [alpha5max, h4']
  have hext4 : ext4 e n = [] := by simp [ext4, h4']
  have hBl : ((extBefore v e n).map (fun r => rad2deg r.alpha)).getLast? = some L' := by
    simp only [extBefore, hext4, List.append_nil, List.map_append, ext5, List.map_map, List.getLast?_append]
    have hd : ((npLinspace (-(Num.pi : ℝ) / Num.nat 2) (alpha5max e) n).drop 1).getLast? = some (deg2rad L') := by
      rw [List.getLast?_drop, if_neg (by rw [linspace_length]; omega), linspace_last _ _ n hn, h5, hr.low]
    rw [List.getLast?_map, hd]
    simp only [Option.map_some, Function.comp, rad_deg, Option.some_or]
  set B := (extBefore v e n).map (fun r => rad2deg r.alpha) with hB
  have hBne : B ≠ [] := fun h => by rw [h] at hBl; simp at hBl
  have hBlen : 0 < B.length := List.length_pos_iff.mpr hBne
  refine ⟨B.length - 1, ?_, ?_⟩
  · simp only [extPolar, ← hB]
    rw [List.append_assoc, List.getElem?_append_left (by omega), ← List.getLast?_eq_getElem?, hBl]
  · simp only [extPolar, ← hB]
    rw [List.append_assoc, List.getElem?_append_right (by omega), show B.length - 1 + 1 - B.length = 0 by omega]
    cases ha : p.alpha with
    | nil => exact absurd ha hp.ne
    | cons a l => rw [ha] at hL; simpa using hL

/-- A symmetric table. -/
def symmetric : Polar ℝ := ⟨1, [-10, 0, 10], [-1, 0, 1], [1, 1, 1], [0, 0, 0]⟩

theorem symmetric_wf : symmetric.WF :=
  ⟨by simp [symmetric], by simp [symmetric], by intro c; cases c <;> rfl⟩

/-- **C61** The angles need not be strictly increasing. -/
theorem extrapolate_increasing_false : ∃ p q : Polar ℝ, p.WF ∧ p.extrapolate 1 none (1 / 1000) 15 = .ok q ∧
    ¬ q.alpha.Pairwise (· < ·) := by
  obtain ⟨_, _, _, _, _, h⟩ := extrapolate_ok symmetric symmetric_wf (-10) 10 0 ⟨deg2rad 10, 1, 1, deg2rad (-10), -1, 1⟩
    ⟨rfl, rfl, rfl, rfl, rfl, rfl, rfl, rfl, rfl⟩ 1 none (1 / 1000) 15 (by norm_num) (by norm_num) (by norm_num)
    (.inl (by simp [symmetric]))
  refine ⟨symmetric, _, symmetric_wf, h, fun hpw => ?_⟩
  obtain ⟨i, h1, h2⟩ := extrapolate_duplicate symmetric _ symmetric_wf (-10) 10 rfl rfl (by norm_num) 1 none (1 / 1000) 15
    (by norm_num) h
  obtain ⟨h1a, h1b⟩ := List.getElem?_eq_some_iff.mp h1
  obtain ⟨h2a, h2b⟩ := List.getElem?_eq_some_iff.mp h2
  have := List.pairwise_iff_getElem.mp hpw i (i + 1) h1a h2a (by omega)
  rw [h1b, h2b] at this
  exact lt_irrefl _ this

/-- The hypotheses of `extrapolate_continuous` and `extrapolate_increasing_partial` are met. -/
example : ∃ q, cambered.extrapolate 1 none (1 / 1000) 15 = .ok q ∧ q.alpha.Pairwise (· < ·) := by
  obtain ⟨q, h⟩ := cambered_ok
  refine ⟨q, h, extrapolate_increasing_partial cambered q cambered_wf (-5) 15 rfl rfl ?_ (by norm_num) (by norm_num) 1 none _ 15
    (by norm_num) h⟩
  simp only [num_real]
  linarith [Real.pi_gt_three]

end Verif
