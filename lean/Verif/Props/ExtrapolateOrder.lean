import Verif.Props.Extrapolate

/-!
# Order of the extrapolated angles (C61)
-/

namespace Verif

/-- A list of numbers ordered by `R`, between `a` and `b`. -/
structure Seg (R : ℝ → ℝ → Prop) (l : List ℝ) (a b : ℝ) : Prop where
  le : a ≤ b
  pw : l.Pairwise R
  lo : ∀ x ∈ l, R a x
  up : ∀ x ∈ l, x ≤ b

/-- The two orders of interest -/
structure AngleOrd (R : ℝ → ℝ → Prop) : Prop where
  le : ∀ {x y}, R x y → x ≤ y
  left : ∀ {x y z}, x ≤ y → R y z → R x z
  right : ∀ {x y z}, R x y → y ≤ z → R x z
  lin : ∀ {a b : ℝ} {n : ℕ}, 2 ≤ n → R a b → (((npLinspace a b n).drop 1).map (rad2deg : ℝ → ℝ)).Pairwise R ∧
    ∀ x ∈ (npLinspace a b n).drop 1, R (rad2deg a) (rad2deg x)
  lt : ∀ {x y}, x < y → R x y

theorem AngleOrd.strict : AngleOrd (fun x y : ℝ => x < y) where
  le := le_of_lt
  left := lt_of_le_of_lt
  right := lt_of_lt_of_le
  lin := fun {a b n} hn h => by
    refine ⟨?_, fun x hx => rad2deg_lt ((linspace_drop_mem a b n x hn h.le hx).2.2 h)⟩
    rw [List.pairwise_map]
    exact ((linspace_strict a b n hn h).drop).imp fun h => rad2deg_lt h
  lt := id

theorem AngleOrd.weak : AngleOrd (fun x y : ℝ => x ≤ y) where
  le := id
  left := le_trans
  right := le_trans
  lin := fun {a b n} hn h => by
    refine ⟨?_, fun x hx => rad2deg_le (linspace_drop_mem a b n x hn h hx).1⟩
    rw [List.pairwise_map]
    refine List.Pairwise.imp (R := (· ≤ ·)) (fun h => rad2deg_le h) ?_
    refine List.Pairwise.drop ?_
    rw [linspace_eq a b n hn, List.pairwise_map]
    refine List.pairwise_lt_range.imp fun {i j} hij => ?_
    have hpos : (0 : ℝ) < n - 1 := by
      have : (2 : ℝ) ≤ n := by exact_mod_cast hn
      linarith
    have hd : 0 ≤ (b - a) / (n - 1 : ℝ) := div_nonneg (by linarith) hpos.le
    have : (i : ℝ) ≤ j := by exact_mod_cast hij.le
    nlinarith
  lt := le_of_lt

theorem Seg.append {R : ℝ → ℝ → Prop} (o : AngleOrd R) {l m : List ℝ} {a b c : ℝ} (h1 : Seg R l a b) (h2 : Seg R m b c) : Seg R (l ++ m) a c where
  le := h1.le.trans h2.le
  pw := List.pairwise_append.mpr ⟨h1.pw, h2.pw, fun x hx y hy => o.left (h1.up x hx) (h2.lo y hy)⟩
  lo := fun x hx => by
    rcases List.mem_append.mp hx with h | h
    · exact h1.lo x h
    · exact o.left h1.le (h2.lo x h)
  up := fun x hx => by
    rcases List.mem_append.mp hx with h | h
    · exact (h1.up x h).trans h2.le
    · exact h2.up x h

theorem Seg.lin {R : ℝ → ℝ → Prop} (o : AngleOrd R) {a b : ℝ} {n : ℕ} (hn : 2 ≤ n) (h : R a b) :
    Seg R (((npLinspace a b n).drop 1).map (rad2deg : ℝ → ℝ)) (rad2deg a) (rad2deg b) where
  le := rad2deg_le (o.le h)
  pw := (o.lin hn h).1
  lo := fun x hx => by
    obtain ⟨y, hy, rfl⟩ := List.mem_map.mp hx
    exact (o.lin hn h).2 y hy
  up := fun x hx => by
    obtain ⟨y, hy, rfl⟩ := List.mem_map.mp hx
    exact rad2deg_le (linspace_drop_mem a b n y hn (o.le h) hy).2.1

theorem map_deg (l : List ℝ) (f : ℝ → ExtRow ℝ) (h : ∀ a, (f a).alpha = a) :
    (l.map f).map (fun r => rad2deg r.alpha) = l.map (rad2deg : ℝ → ℝ) := by
  rw [List.map_map]
  exact List.map_congr_left fun a _ => by simp only [Function.comp, h]

/-- The angles of the result, as the blocks written by the code. -/
theorem extrapolate_angles (p q : Polar ℝ) (hp : p.WF) (L H : ℝ) (hL : p.alpha.head? = some L)
    (hH : p.alpha.getLast? = some H) (cdmax : ℝ) (AR : Option ℝ) (cdmin : ℝ) (n : ℕ) (h : p.extrapolate cdmax AR cdmin n = .ok q) :
    H ≤ 90 ∧ -90 ≤ L ∧ ∃ (v : VitPar ℝ) (e : Ends ℝ), e.alphaLow = deg2rad L ∧ e.alphaHigh = deg2rad H ∧
      q.alpha = (extBefore v e n).map (fun r => rad2deg r.alpha) ++ p.alpha ++ (extAfter v e n).map (fun r => rad2deg r.alpha) := by
  obtain ⟨L', H', e, cmH, hr⟩ := exists_rim p hp
  obtain rfl : L' = L := by have := hr.first; rw [hL] at this; exact (Option.some.inj this).symm
  obtain rfl : H' = H := by have := hr.last; rw [hH] at this; exact (Option.some.inj this).symm
  obtain ⟨h0, h1', h2', h3'⟩ := ok_cases p hp L' H' cmH e hr cdmax AR cdmin n q h
  obtain ⟨g2, outs, hg, hlen, _, hok⟩ := extrapolate_ok p hp L' H' cmH e hr cdmax AR cdmin n h0 h1' h2' h3'
  rw [hok] at h
  obtain rfl := Except.ok.inj h
  exact ⟨h1', h2', _, e, hr.low, hr.high, rfl⟩

theorem data_bounds (p : Polar ℝ) (hp : p.WF) (L H : ℝ) (hL : p.alpha.head? = some L) (hH : p.alpha.getLast? = some H) :
    ∀ a ∈ p.alpha, L ≤ a ∧ a ≤ H := by
  intro a ha
  constructor
  · have hi := hp.inc
    cases hal : p.alpha with
    | nil => rw [hal] at ha; simp at ha
    | cons b l =>
      rw [hal] at ha hi hL
      obtain rfl : b = L := by simpa using hL
      rcases List.mem_cons.mp ha with rfl | ha
      · exact le_refl _
      · exact ((List.pairwise_cons.mp hi).1 a ha).le
  · obtain ⟨m, hm⟩ := List.getLast?_eq_some_iff.mp hH
    have hi := hp.inc
    rw [hm] at ha hi
    rcases List.mem_append.mp ha with ha | ha
    · exact ((List.pairwise_append.mp hi).2.2 a ha H (by simp)).le
    · simp at ha; exact ha.le

/-- Both orders at once: the blocks follow each other if their end points do. -/
theorem blocks_ordered {R : ℝ → ℝ → Prop} (o : AngleOrd R) (p : Polar ℝ) (hp : p.WF) (L H : ℝ) (hL : p.alpha.head? = some L)
    (hH : p.alpha.getLast? = some H) (v : VitPar ℝ) (e : Ends ℝ) (n : ℕ) (hn : 2 ≤ n) (he : e.alphaLow = deg2rad L)
    (he' : e.alphaHigh = deg2rad H) (c1 : R (-Real.pi) (-Real.pi + e.alphaHigh)) (c2 : R (-Real.pi + e.alphaHigh) (-Real.pi / 2))
    (c3 : R (-Real.pi / 2) (alpha5max e)) (c4 : R (rad2deg (alpha5max e)) L) (c5 : R e.alphaHigh (Real.pi / 2))
    (c6 : R (Real.pi / 2) (Real.pi - e.alphaHigh)) (c7 : R (Real.pi - e.alphaHigh) Real.pi) :
    ((extBefore v e n).map (fun r => rad2deg r.alpha) ++ p.alpha ++ (extAfter v e n).map (fun r => rad2deg r.alpha)).Pairwise R := by
  have hb := data_bounds p hp L H hL hH
  have hLm : L ≤ H := (hb L (List.mem_of_head? hL)).2
  have hmid : Seg R ((ext4 e n).map (fun r => rad2deg r.alpha) ++ p.alpha) (rad2deg (alpha5max e)) (rad2deg e.alphaHigh) := by
    have hHr : rad2deg e.alphaHigh = H := by rw [he', rad_deg]
    have hLr : rad2deg e.alphaLow = L := by rw [he, rad_deg]
    have h4 : ((ext4 e n).map (fun r => rad2deg r.alpha)).Pairwise (· < ·) ∧
        ∀ x ∈ (ext4 e n).map (fun r => rad2deg r.alpha), rad2deg (alpha5max e) < x ∧ x < L := by
      by_cases hc : e.alphaLow ≤ -e.alphaHigh
      · rw [ext4, if_pos hc]; simp
      · have hlt := not_le.mp hc
        rw [ext4, if_neg hc, map_deg _ _ fun _ => rfl, alpha5max, if_neg hc]
        refine ⟨?_, ?_⟩
        · rw [List.pairwise_map]
          exact ((linspace_strict _ _ n hn hlt).take).drop.imp fun h => rad2deg_lt h
        · intro x hx
          obtain ⟨y, hy, rfl⟩ := List.mem_map.mp hx
          have := linspace_mid_mem _ _ n y hn hlt hy
          exact ⟨rad2deg_lt this.1, by rw [← hLr]; exact rad2deg_lt this.2⟩
    refine ⟨by rw [hHr]; exact (o.le c4).trans hLm, ?_, ?_, ?_⟩
    · exact List.pairwise_append.mpr ⟨h4.1.imp o.lt, hp.inc.imp o.lt, fun x hx y hy => o.lt (lt_of_lt_of_le (h4.2 x hx).2 (hb y hy).1)⟩
    · intro x hx
      rcases List.mem_append.mp hx with h | h
      · exact o.lt (h4.2 x h).1
      · exact o.right c4 (hb x h).1
    · intro x hx
      rw [hHr]
      rcases List.mem_append.mp hx with h | h
      · exact (h4.2 x h).2.le.trans hLm
      · exact (hb x h).2
  have s7 : Seg R _ _ _ := Seg.lin o hn c1
  have s6 : Seg R _ _ _ := Seg.lin o hn c2
  have s5 : Seg R _ _ _ := Seg.lin o hn c3
  have s1 : Seg R _ _ _ := Seg.lin o hn c5
  have s2 : Seg R _ _ _ := Seg.lin o hn c6
  have s3 : Seg R _ _ _ := Seg.lin o hn c7
  have hall := (((s7.append o s6).append o s5).append o hmid).append o ((s1.append o s2).append o s3)
  have hhead : npLinspace (-Real.pi) (-Real.pi + e.alphaHigh) n = -Real.pi :: (npLinspace (-Real.pi) (-Real.pi + e.alphaHigh) n).drop 1 := by
    have := linspace_head (-Real.pi) (-Real.pi + e.alphaHigh) n hn
    cases hl : npLinspace (-Real.pi) (-Real.pi + e.alphaHigh) n with
    | nil => rw [hl] at this; cases this
    | cons x l => rw [hl] at this; cases this; rfl
  have e7 : (ext7 v e n).map (fun r => rad2deg r.alpha) = rad2deg (-Real.pi) :: ((npLinspace (-Real.pi) (-Real.pi + e.alphaHigh) n).drop 1).map rad2deg := by
    rw [ext7, map_deg _ _ fun _ => rfl]
    conv_lhs => rw [show (Num.pi : ℝ) = Real.pi from rfl, hhead]
    rfl
  have hpi : (Num.pi : ℝ) / Num.nat 2 = Real.pi / 2 := by simp [num_real]
  have hpi' : -(Num.pi : ℝ) / Num.nat 2 = -Real.pi / 2 := by simp [num_real]
  have hpi'' : (Num.pi : ℝ) = Real.pi := rfl
  have hlist : (extBefore v e n).map (fun r => rad2deg r.alpha) ++ p.alpha ++ (extAfter v e n).map (fun r => rad2deg r.alpha)
      = rad2deg (-Real.pi) :: ((((((npLinspace (-Real.pi) (-Real.pi + e.alphaHigh) n).drop 1).map rad2deg ++
        ((npLinspace (-Real.pi + e.alphaHigh) (-Real.pi / 2) n).drop 1).map rad2deg) ++
        ((npLinspace (-Real.pi / 2) (alpha5max e) n).drop 1).map rad2deg) ++ ((ext4 e n).map (fun r => rad2deg r.alpha) ++ p.alpha)) ++
        ((((npLinspace e.alphaHigh (Real.pi / 2) n).drop 1).map rad2deg ++
        ((npLinspace (Real.pi / 2) (Real.pi - e.alphaHigh) n).drop 1).map rad2deg) ++
        ((npLinspace (Real.pi - e.alphaHigh) Real.pi n).drop 1).map rad2deg)) := by
    simp only [extBefore, extAfter, List.map_append, e7]
    rw [ext6, ext5, ext1, ext2, ext3, map_deg _ _ fun _ => rfl, map_deg _ _ fun _ => rfl, map_deg _ _ fun _ => rfl, map_deg _ _ fun _ => rfl,
      map_deg _ _ fun _ => rfl, hpi, hpi', hpi'']
    simp only [List.append_assoc, List.cons_append]
  rw [hlist]
  exact List.pairwise_cons.mpr ⟨hall.lo, hall.pw⟩

/-- **C61** The angles of an extrapolated polar never decrease exactly when the data do not end below zero degrees. -/
theorem extrapolate_sorted_iff (p q : Polar ℝ) (hp : p.WF) (L H : ℝ) (hL : p.alpha.head? = some L)
    (hH : p.alpha.getLast? = some H) (cdmax : ℝ) (AR : Option ℝ) (cdmin : ℝ) (n : ℕ) (hn : 2 ≤ n)
    (h : p.extrapolate cdmax AR cdmin n = .ok q) : q.alpha.Pairwise (· ≤ ·) ↔ 0 ≤ H := by
  obtain ⟨hH9, hL9, v, e, he, he', hq⟩ := extrapolate_angles p q hp L H hL hH cdmax AR cdmin n h
  have hpi := Real.pi_pos
  constructor
  · intro hs
    by_contra hneg
    have hneg := not_le.mp hneg
    have hlt : deg2rad H < 0 := by have := deg2rad_lt hneg; simpa [num_real] using this
    rw [hq] at hs
    have hs := (List.pairwise_append.mp (List.pairwise_append.mp hs).1).1
    simp only [extBefore, List.map_append] at hs
    have hs := (List.pairwise_append.mp (List.pairwise_append.mp (List.pairwise_append.mp hs).1).1).1
    rw [ext7, map_deg _ _ fun _ => rfl, linspace_eq _ _ n hn, List.map_map, List.pairwise_map] at hs
    have h01 := List.pairwise_iff_getElem.mp hs 0 1 (by simp; omega) (by simp; omega) (by omega)
    simp only [List.getElem_range, Function.comp] at h01
    have hpos : (0 : ℝ) < n - 1 := by
      have : (2 : ℝ) ≤ n := by exact_mod_cast hn
      linarith
    have hd : (-(Num.pi : ℝ) + e.alphaHigh - -Num.pi) / (n - 1 : ℝ) < 0 := by
      rw [he', show -(Num.pi : ℝ) + deg2rad H - -Num.pi = deg2rad H by ring]
      exact div_neg_of_neg_of_pos hlt hpos
    have := rad2deg_lt (show -(Num.pi : ℝ) + (1 : ℕ) * ((-(Num.pi : ℝ) + e.alphaHigh - -Num.pi) / (n - 1 : ℝ)) < -(Num.pi : ℝ) + (0 : ℕ) * ((-(Num.pi : ℝ) + e.alphaHigh - -Num.pi) / (n - 1 : ℝ)) by
      push_cast; linarith)
    exact absurd h01 (not_le.mpr this)
  · intro h0
    have a0 : 0 ≤ e.alphaHigh := by rw [he']; simpa [num_real] using deg2rad_le h0
    have a1 : e.alphaHigh ≤ Real.pi / 2 := by rw [he', ← deg2rad_90]; exact deg2rad_le hH9
    have a2 : -(Real.pi / 2) ≤ e.alphaLow := by rw [he, ← deg2rad_90, ← deg2rad_neg]; exact deg2rad_le hL9
    rw [hq]
    refine blocks_ordered AngleOrd.weak p hp L H hL hH v e n hn he he' ?_ ?_ ?_ ?_ ?_ ?_ ?_
    · linarith
    · linarith
    · unfold alpha5max; split_ifs <;> linarith
    · have := rad2deg_le (alpha5max_le e).1
      rwa [he, rad_deg] at this
    all_goals linarith

/-- **C61** The exact condition: the angles of an extrapolated polar strictly increase if and only if the data end below 90 degrees
and start above the negative of their end. -/
theorem extrapolate_increasing_iff (p q : Polar ℝ) (hp : p.WF) (L H : ℝ) (hL : p.alpha.head? = some L)
    (hH : p.alpha.getLast? = some H) (cdmax : ℝ) (AR : Option ℝ) (cdmin : ℝ) (n : ℕ) (hn : 2 ≤ n)
    (h : p.extrapolate cdmax AR cdmin n = .ok q) : q.alpha.Pairwise (· < ·) ↔ H < 90 ∧ -H < L := by
  obtain ⟨hH9, hL9, v, e, he, he', hq⟩ := extrapolate_angles p q hp L H hL hH cdmax AR cdmin n h
  have hpi := Real.pi_pos
  have hLH : L ≤ H := (data_bounds p hp L H hL hH L (List.mem_of_head? hL)).2
  constructor
  · intro hs
    have h3 : -H < L := by
      by_contra hc
      obtain ⟨i, g1, g2⟩ := extrapolate_duplicate p q hp L H hL hH (not_lt.mp hc) cdmax AR cdmin n hn h
      obtain ⟨h1a, h1b⟩ := List.getElem?_eq_some_iff.mp g1
      obtain ⟨h2a, h2b⟩ := List.getElem?_eq_some_iff.mp g2
      have := List.pairwise_iff_getElem.mp hs i (i + 1) h1a h2a (by omega)
      rw [h1b, h2b] at this
      exact lt_irrefl _ this
    refine ⟨lt_of_le_of_ne hH9 fun h9 => ?_, h3⟩
    rw [hq] at hs
    have hx := (List.pairwise_append.mp hs).2.2 H (List.mem_append_right _ (List.mem_of_getLast? hH)) H ?_
    · exact lt_irrefl _ hx
    · simp only [extAfter, List.map_append]
      refine List.mem_append_left _ (List.mem_append_left _ ?_)
      rw [ext1, map_deg _ _ fun _ => rfl, linspace_eq _ _ n hn]
      refine List.mem_map.mpr ⟨e.alphaHigh, ?_, by rw [he', rad_deg]⟩
      refine List.mem_of_getElem? (i := 0) ?_
      have : (Num.pi : ℝ) / Num.nat 2 - e.alphaHigh = 0 := by
        rw [he', h9, deg2rad_90]; simp [num_real]
      rw [List.getElem?_drop, List.getElem?_map, List.getElem?_range (by omega), this]
      simp
  · rintro ⟨h9, h3⟩
    have hpos : 0 < H := by linarith
    have a0 : 0 < e.alphaHigh := by rw [he']; simpa [num_real] using deg2rad_lt hpos
    have a1 : e.alphaHigh < Real.pi / 2 := by rw [he', ← deg2rad_90]; exact deg2rad_lt h9
    have a3 : -e.alphaHigh < e.alphaLow := by rw [he, he', ← deg2rad_neg]; exact deg2rad_lt h3
    have a4 : alpha5max e = -e.alphaHigh := by rw [alpha5max, if_neg (not_le.mpr a3)]
    rw [hq]
    refine blocks_ordered AngleOrd.strict p hp L H hL hH v e n hn he he' ?_ ?_ ?_ ?_ ?_ ?_ ?_
    · linarith
    · linarith
    · rw [a4]; linarith
    · rw [a4]
      have := rad2deg_lt a3
      rwa [he, rad_deg] at this
    all_goals linarith

/-- A symmetric table is accepted; the angles of the result are sorted, but not strictly. -/
example : ∃ q, symmetric.extrapolate 1 none (1 / 1000) 15 = .ok q ∧ q.alpha.Pairwise (· ≤ ·) ∧ ¬ q.alpha.Pairwise (· < ·) := by
  obtain ⟨_, _, _, _, _, h⟩ := extrapolate_ok symmetric symmetric_wf (-10) 10 0 ⟨deg2rad 10, 1, 1, deg2rad (-10), -1, 1⟩
    ⟨rfl, rfl, rfl, rfl, rfl, rfl, rfl, rfl, rfl⟩ 1 none (1 / 1000) 15 (by norm_num) (by norm_num) (by norm_num)
    (.inl (by simp [symmetric]))
  refine ⟨_, h, (extrapolate_sorted_iff _ _ symmetric_wf (-10) 10 rfl rfl 1 none _ 15 (by norm_num) h).mpr (by norm_num), fun hs => ?_⟩
  have := ((extrapolate_increasing_iff _ _ symmetric_wf (-10) 10 rfl rfl 1 none _ 15 (by norm_num) h).mp hs).2
  norm_num at this

/-- A cambered table is accepted, and the angles of the result strictly increase. -/
example : ∃ q, cambered.extrapolate 1 none (1 / 1000) 15 = .ok q ∧ q.alpha.Pairwise (· < ·) := by
  obtain ⟨q, h⟩ := cambered_ok
  exact ⟨q, h, (extrapolate_increasing_iff _ q cambered_wf (-5) 15 rfl rfl 1 none _ 15 (by norm_num) h).mpr (by norm_num)⟩

/-- A table up to 90 degrees, with one angle twice in the result. -/
def upToRight : Polar ℝ := ⟨1, [0, 45, 90], [0, 1, 0], [1, 1, 1], [0, 0, 0]⟩

/-- A table of negative angles only. -/
def negativeOnly : Polar ℝ := ⟨1, [-20, -15, -10], [-2, -1, -1], [1, 1, 1], [0, 0, 0]⟩

theorem upToRight_wf : upToRight.WF :=
  ⟨by simp [upToRight], by simp [upToRight]; norm_num, by intro c; cases c <;> rfl⟩

theorem negativeOnly_wf : negativeOnly.WF :=
  ⟨by simp [negativeOnly], by simp [negativeOnly]; norm_num, by intro c; cases c <;> rfl⟩

example : ∃ q, upToRight.extrapolate 1 none (1 / 1000) 15 = .ok q ∧ q.alpha.Pairwise (· ≤ ·) ∧ ¬ q.alpha.Pairwise (· < ·) := by
  obtain ⟨_, _, _, _, _, h⟩ := extrapolate_ok upToRight upToRight_wf 0 90 0 ⟨deg2rad 90, 0, 1, deg2rad 0, 0, 1⟩
    ⟨rfl, rfl, rfl, rfl, rfl, rfl, rfl, rfl, rfl⟩ 1 none (1 / 1000) 15 (by norm_num) (by norm_num) (by norm_num)
    (.inl (by simp [upToRight]))
  refine ⟨_, h, (extrapolate_sorted_iff _ _ upToRight_wf 0 90 rfl rfl 1 none _ 15 (by norm_num) h).mpr (by norm_num), fun hs => ?_⟩
  have := ((extrapolate_increasing_iff _ _ upToRight_wf 0 90 rfl rfl 1 none _ 15 (by norm_num) h).mp hs).1
  norm_num at this

/-- **C61** The angles need not even be sorted: a table of negative angles. -/
theorem extrapolate_sorted_false : ∃ p q : Polar ℝ, p.WF ∧ p.extrapolate 1 none (1 / 1000) 15 = .ok q ∧
    ¬ q.alpha.Pairwise (· ≤ ·) := by
  obtain ⟨_, _, _, _, _, h⟩ := extrapolate_ok negativeOnly negativeOnly_wf (-20) (-10) 0
    ⟨deg2rad (-10), -1, 1, deg2rad (-20), -2, 1⟩
    ⟨rfl, rfl, rfl, rfl, rfl, rfl, rfl, rfl, rfl⟩ 1 none (1 / 1000) 15 (by norm_num) (by norm_num) (by norm_num)
    (.inl (by simp [negativeOnly]))
  refine ⟨_, _, negativeOnly_wf, h, fun hs => ?_⟩
  have := (extrapolate_sorted_iff _ _ negativeOnly_wf (-20) (-10) rfl rfl 1 none _ 15 (by norm_num) h).mp hs
  norm_num at this

end Verif
