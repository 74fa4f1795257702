import Verif.Props.Moments
import Verif.Props.Unsteady

/-!
# The extrapolated moment curve (C88)
-/

namespace Verif

/-! ## Specification -/

/-- Rows `i` and `i + 1`: the lift rises through zero, within 20 degrees. -/
def Polar.LiftRises (p : Polar ℝ) (i : ℕ) : Prop :=
  ∃ a l0 l1, p.alpha[i]? = some a ∧ |a| < 20 ∧ p.cl[i]? = some l0 ∧ p.cl[i + 1]? = some l1 ∧ l0 ≤ 0 ∧ 0 ≤ l1

/-- `c` is the moment at zero lift, on the line through the two rows where the lift first rises through zero (the first two rows if
it does nowhere). -/
def Polar.ZeroLiftMoment (p : Polar ℝ) (c : ℝ) : Prop :=
  ∃ i l0 l1 m0 m1, ((p.LiftRises i ∧ ∀ j < i, ¬ p.LiftRises j) ∨ (i = 0 ∧ ∀ j, ¬ p.LiftRises j)) ∧
    p.cl[i]? = some l0 ∧ p.cl[i + 1]? = some l1 ∧ p.cm[i]? = some m0 ∧ p.cm[i + 1]? = some m1 ∧
    (l0 ≠ l1 → (c - m0) * (l1 - l0) = (m1 - m0) * (0 - l0))

/-- Moment at the angle `a` (degrees) of the normal force, acting `x` chords behind the reference point, where `x` is a quarter at 90
degrees and varies with the tangent of the angle. -/
noncomputable def pitching (cm0 k a cl cd : ℝ) : ℝ :=
  let t := a * (Real.pi / 180)
  cm0 - (k * Real.tan (t - Real.pi / 2) + 1 / 4) * (cl * Real.cos t + cd * Real.sin t)

/-- The moment `m` tabulated at the angle `a` outside the data, for lift `cl` and drag `cd` there -/
structure MomentNode (cm0 k a cl cd m : ℝ) : Prop where
  back : a = 180 ∨ a = -180 → m = 0
  back1 : a = 170 → m = -1 / 2
  back2 : a = -170 → m = 2 / 5
  zero : a = 0 → m = cm0
  pos : 0 < a → a < 165 → m = pitching cm0 k a cl cd
  neg : -165 < a → a < 0 → m = -pitching cm0 k (-a) (-cl) cd

/-- The points `(10 j, M j)` for `lo ≤ j ≤ hi` -/
def tens (M : ℤ → ℝ) (lo hi : ℤ) : List (ℝ × ℝ) :=
  (List.range (hi + 1 - lo).toNat).map fun i : ℕ => (10 * ((lo + i : ℤ) : ℝ), M (lo + i))

/-! ## Lemmas -/

theorem interpFrom_between (x : ℝ) : ∀ (rest : List (ℝ × ℝ)) (p : ℝ × ℝ), p.1 ≤ x → (∃ q, (p :: rest).getLast? = some q ∧ x ≤ q.1) →
    OnPolyline (p :: rest) x (interpFrom x p rest)
  | [], p, h1, h2 => by
    obtain ⟨q, hq, hx⟩ := h2
    obtain rfl : p = q := by simpa using hq
    left
    simp only [interpFrom, List.mem_singleton]
    exact Prod.ext (le_antisymm hx h1) rfl
  | q :: rest, p, h1, h2 => by
    simp only [interpFrom]
    by_cases hx : x < q.1
    · rw [if_pos hx]
      right
      refine ⟨0, p, q, by simp, by simp, h1, hx.le, ?_⟩
      have : q.1 - p.1 ≠ 0 := by linarith
      field_simp
      ring
    · rw [if_neg hx]
      refine (interpFrom_between x rest q (not_lt.mp hx) ?_).cons p
      obtain ⟨r, hr, hxr⟩ := h2
      exact ⟨r, by simpa using hr, hxr⟩

/-- Interpolation in the range of the first and the last point, in whatever order the others are. -/
theorem interpVal_between (xp fp : List ℝ) (hl : fp.length = xp.length) (x a b : ℝ) (ha : xp.head? = some a)
    (hb : xp.getLast? = some b) (h1 : a ≤ x) (h2 : x ≤ b) : OnPolyline (xp.zip fp) x (interpVal xp fp x) := by
  unfold interpVal
  cases xp with
  | nil => simp at ha
  | cons a' l =>
    obtain rfl : a' = a := by simpa using ha
    cases fp with
    | nil => simp at hl
    | cons c m =>
      simp only [List.zip_cons_cons]
      rw [if_neg (not_lt.mpr h1)]
      refine interpFrom_between x _ _ h1 ?_
      have hne : (a' :: l).zip (c :: m) ≠ [] := by simp
      obtain ⟨q, hq⟩ := exists_last _ hne
      refine ⟨q, by simpa using hq, ?_⟩
      have hlast : (((a' :: l).zip (c :: m)).map Prod.fst).getLast? = some q.1 := by rw [List.getLast?_map, hq]; rfl
      rw [List.map_fst_zip (by omega), hb] at hlast
      rw [← Option.some.inj hlast]
      exact h2

theorem zeroLiftCm_some : ∀ (rows : List (ℝ × ℝ × ℝ)) (c : ℝ), zeroLiftCm rows = some c →
    ∃ i a b, rows[i]? = some a ∧ rows[i + 1]? = some b ∧ (|a.1| < 20 ∧ a.2.1 ≤ 0 ∧ 0 ≤ b.2.1) ∧
      (∀ j < i, ∀ a b, rows[j]? = some a → rows[j + 1]? = some b → ¬ (|a.1| < 20 ∧ a.2.1 ≤ 0 ∧ 0 ≤ b.2.1)) ∧
      c = a.2.2 + -a.2.1 / (b.2.1 - a.2.1) * (b.2.2 - a.2.2)
  | [], _, h => by simp [zeroLiftCm] at h
  | [_], _, h => by simp [zeroLiftCm] at h
  | a :: b :: rest, c, h => by
    unfold zeroLiftCm at h
    simp only [real_nabs, real_nat, Nat.cast_ofNat] at h
    split_ifs at h with hc
    · exact ⟨0, a, b, rfl, rfl, hc, fun j hj => by omega, (Option.some.inj h).symm⟩
    · obtain ⟨i, a', b', h1, h2, h3, h4, h5⟩ := zeroLiftCm_some (b :: rest) c h
      refine ⟨i + 1, a', b', by simpa using h1, by simpa using h2, h3, fun j hj u w hu hw => ?_, h5⟩
      cases j with
      | zero =>
        obtain rfl : a = u := by simpa using hu
        obtain rfl : b = w := by simpa using hw
        exact hc
      | succ j => exact h4 j (by omega) u w (by simpa using hu) (by simpa using hw)

theorem zeroLiftCm_none : ∀ (rows : List (ℝ × ℝ × ℝ)), zeroLiftCm rows = none →
    ∀ j a b, rows[j]? = some a → rows[j + 1]? = some b → ¬ (|a.1| < 20 ∧ a.2.1 ≤ 0 ∧ 0 ≤ b.2.1)
  | [], _, j, a, b, h1, _ => by simp at h1
  | [_], _, j, a, b, _, h2 => by simp at h2
  | a :: b :: rest, h, j, u, w, h1, h2 => by
    unfold zeroLiftCm at h
    simp only [real_nabs, real_nat, Nat.cast_ofNat] at h
    split_ifs at h with hc
    cases j with
    | zero =>
      obtain rfl : a = u := by simpa using h1
      obtain rfl : b = w := by simpa using h2
      exact hc
    | succ j => exact zeroLiftCm_none (b :: rest) h j u w (by simpa using h1) (by simpa using h2)

theorem row_get (p : Polar ℝ) (i : ℕ) (a l m : ℝ) :
    (p.alpha.zip (p.cl.zip p.cm))[i]? = some (a, l, m) ↔ p.alpha[i]? = some a ∧ p.cl[i]? = some l ∧ p.cm[i]? = some m := by
  rw [List.getElem?_zip_eq_some, List.getElem?_zip_eq_some]

theorem cmZero_spec (p : Polar ℝ) (hp : p.WF) (c : ℝ) (h : cmZero (p.alpha.zip (p.cl.zip p.cm)) = .ok c) : p.ZeroLiftMoment c := by
  have hlcl : p.cl.length = p.alpha.length := hp.len .cl
  have hlcm : p.cm.length = p.alpha.length := hp.len .cm
  set rows := p.alpha.zip (p.cl.zip p.cm) with hrows
  have hcross : ∀ j, p.LiftRises j → ∃ a b, rows[j]? = some a ∧ rows[j + 1]? = some b ∧ (|a.1| < 20 ∧ a.2.1 ≤ 0 ∧ 0 ≤ b.2.1) := by
    rintro j ⟨a, l0, l1, h1, h2, h3, h4, h5, h6⟩
    have hj : j + 1 < p.cl.length := (List.getElem?_eq_some_iff.mp h4).1
    refine ⟨(a, l0, p.cm[j]), (p.alpha[j + 1], l1, p.cm[j + 1]), ?_, ?_, h2, h5, h6⟩
    · exact (row_get p j _ _ _).mpr ⟨h1, h3, List.getElem?_eq_getElem (by omega)⟩
    · exact (row_get p (j + 1) _ _ _).mpr ⟨List.getElem?_eq_getElem (by omega), h4, List.getElem?_eq_getElem (by omega)⟩
  unfold cmZero at h
  cases hz : zeroLiftCm rows with
  | some c' =>
    rw [hz] at h
    obtain rfl := Except.ok.inj h
    obtain ⟨i, ⟨a, l0, m0⟩, ⟨b, l1, m1⟩, h1, h2, h3, h4, h5⟩ := zeroLiftCm_some rows _ hz
    obtain ⟨a1, a2, a3⟩ := (row_get p i _ _ _).mp h1
    obtain ⟨b1, b2, b3⟩ := (row_get p (i + 1) _ _ _).mp h2
    refine ⟨i, l0, l1, m0, m1, .inl ⟨⟨a, l0, l1, a1, h3.1, a2, b2, h3.2⟩, fun j hj hr => ?_⟩, a2, b2, a3, b3, fun hne => ?_⟩
    · obtain ⟨u, w, g1, g2, g3⟩ := hcross j hr
      exact h4 j hj u w g1 g2 g3
    · have : l1 - l0 ≠ 0 := sub_ne_zero.mpr (Ne.symm hne)
      rw [h5]
      field_simp
      ring
  | none =>
    rw [hz] at h
    match hm : rows with
    | [] => cases h
    | [_] => cases h
    | (a, l0, m0) :: (b, l1, m1) :: t =>
      have h := Except.ok.inj h
      obtain ⟨a1, a2, a3⟩ := (row_get p 0 a l0 m0).mp (by rw [← hrows]; rfl)
      obtain ⟨b1, b2, b3⟩ := (row_get p 1 b l1 m1).mp (by rw [← hrows]; rfl)
      refine ⟨0, l0, l1, m0, m1, .inr ⟨rfl, fun j hr => ?_⟩, a2, b2, a3, b3, fun hne => ?_⟩
      · obtain ⟨u, w, g1, g2, g3⟩ := hcross j hr
        exact zeroLiftCm_none _ hz j u w g1 g2 g3
      · have : l1 - l0 ≠ 0 := sub_ne_zero.mpr (Ne.symm hne)
        rw [← h]
        field_simp
        ring

theorem real_ntan (x : ℝ) : ntan x = Real.tan x := by
  rw [Real.tan_eq_sin_div_cos]
  rfl

theorem cmCoeff_spec (e : Ends ℝ) (H cmH cm0 : ℝ) (hH : e.alphaHigh = deg2rad H) (h0 : 0 < H) (h90 : H < 90)
    (hN : e.clHigh * Real.cos (H * (Real.pi / 180)) + e.cdHigh * Real.sin (H * (Real.pi / 180)) ≠ 0) :
    pitching cm0 (cmCoeff e cmH cm0) H e.clHigh e.cdHigh = cmH := by
  have hpi := Real.pi_pos
  have ht : Real.tan (H * (Real.pi / 180) - Real.pi / 2) ≠ 0 := by
    apply ne_of_lt
    apply Real.tan_neg_of_neg_of_pi_div_two_lt
    · nlinarith
    · nlinarith
  unfold pitching cmCoeff
  rw [hH]
  simp only [real_deg2rad, real_ntan, num_real] at *
  push_cast
  generalize Real.tan (H * (Real.pi / 180) - Real.pi / 2) = t at *
  generalize Real.cos (H * (Real.pi / 180)) = c at *
  generalize Real.sin (H * (Real.pi / 180)) = s at *
  field_simp
  ring

theorem getCM_node (k cm0 L H a cl cd : ℝ) (h : a < L ∨ H < a) (ht : ∃ j : ℤ, -18 ≤ j ∧ j ≤ 18 ∧ a = 10 * j) :
    ∃ m, getCM k cm0 L H a cl cd = .value m ∧ MomentNode cm0 k a cl cd m := by
  obtain ⟨j, h1, h2, rfl⟩ := ht
  have hout : ¬ (L ≤ 10 * (j : ℝ) ∧ 10 * (j : ℝ) ≤ H) := by rintro ⟨g1, g2⟩; rcases h with h | h <;> linarith
  have hcast : ∀ n : ℤ, (n : ℝ) = 10 * (j : ℝ) → n = 10 * j := fun n hn => by exact_mod_cast hn
  unfold getCM
  rw [if_neg hout]
  simp only [num_real, real_deg2rad, real_ntan, Nat.cast_ofNat, Nat.cast_one]
  by_cases hmid : -165 < 10 * (j : ℝ) ∧ 10 * (j : ℝ) < 165
  · have hj1 : -17 < j := by have : (-17 : ℝ) < j := by linarith [hmid.1]
                             exact_mod_cast this
    have hj2 : j < 17 := by have : (j : ℝ) < 17 := by linarith [hmid.2]
                            exact_mod_cast this
    rw [if_pos hmid]
    by_cases h0 : j = 0
    · subst h0
      rw [if_pos (by norm_num)]
      refine ⟨_, rfl, ?_⟩
      constructor
      · norm_num
      · norm_num
      · norm_num
      · intro _; rfl
      · norm_num
      · norm_num
    · have hbig : 1 ≤ |(j : ℝ)| := by
        have : 1 ≤ |j| := Int.one_le_abs h0
        exact_mod_cast this
      rw [if_neg (by rw [abs_mul]; norm_num; linarith)]
      have hno : ∀ n : ℤ, (n = 18 ∨ n = -18 ∨ n = 17 ∨ n = -17 ∨ n = 0) → 10 * (j : ℝ) ≠ 10 * n := by
        intro n hn he
        have : (j : ℝ) = n := by linarith
        have : j = n := by exact_mod_cast this
        omega
      have e1 := hno 18 (by simp)
      have e2 := hno (-18) (by simp)
      have e3 := hno 17 (by simp)
      have e4 := hno (-17) (by simp)
      have e5 := hno 0 (by simp)
      push_cast at e1 e2 e3 e4 e5
      norm_num at e1 e2 e3 e4 e5
      by_cases hp : 0 < 10 * (j : ℝ)
      · rw [if_pos hp]
        refine ⟨_, rfl, ?_⟩
        constructor
        · rintro (h | h) <;> contradiction
        · intro h; contradiction
        · intro h; contradiction
        · intro h; exact absurd h hp.ne'
        · intros; simp only [pitching]
        · intro _ h; exact absurd h (not_lt.mpr hp.le)
      · rw [if_neg hp]
        refine ⟨_, rfl, ?_⟩
        constructor
        · rintro (h | h) <;> contradiction
        · intro h; contradiction
        · intro h; contradiction
        · intro h; exfalso; apply h0; have : (j : ℝ) = 0 := by linarith
          exact_mod_cast this
        · intro h; exact absurd h hp
        · intros; simp only [pitching, neg_mul]
  · rw [if_neg hmid]
    have hj : j = 18 ∨ j = 17 ∨ j = -17 ∨ j = -18 := by
      by_contra hc
      apply hmid
      have a1 : -16 ≤ j := by omega
      have a2 : j ≤ 16 := by omega
      have b1 : (-16 : ℝ) ≤ j := by exact_mod_cast a1
      have b2 : (j : ℝ) ≤ 16 := by exact_mod_cast a2
      constructor <;> linarith
    unfold cmTable
    simp only [num_real, Nat.cast_ofNat]
    rcases hj with rfl | rfl | rfl | rfl <;> norm_num <;> constructor <;> norm_num

theorem extrapolate_moment_inv (p q : Polar ℝ) (hp : p.WF) (L H cmH : ℝ) (e : Ends ℝ) (hr : p.Rim L H e cmH) (cdmax : ℝ)
    (AR : Option ℝ) (cdmin : ℝ) (n : ℕ) (hn : 2 ≤ n) (h : p.extrapolate cdmax AR cdmin n = .ok q) (hne : ∃ c ∈ p.cm, c ≠ 0) :
    ∃ g2 cm0, cmGridHigh H = .ok g2 ∧ cmZero (p.alpha.zip (p.cl.zip p.cm)) = .ok cm0 ∧
      q.cm = q.alpha.map (interpVal (cmGridLow L ++ p.alpha ++ g2)
        (List.zipWith (fun o old => CmOut.update o old)
          ((cmGridLow L ++ p.alpha ++ g2).map fun a => getCM (cmCoeff e cmH cm0) cm0 L H a (interpVal q.alpha q.cl a)
            (interpVal q.alpha q.cd a))
          (List.replicate (cmGridLow L).length 0 ++ p.cm ++ List.replicate g2.length 0))) := by
  have hE : (⟨deg2rad H, e.clHigh, e.cdHigh, deg2rad L, e.clLow, e.cdLow⟩ : Ends ℝ) = e := by
    rw [← hr.low, ← hr.high]
  obtain ⟨-, -, hlast, hcols, -⟩ := extrapolate_keeps p q hp cdmax AR cdmin n hn h
  have hcl : q.cl.length = q.alpha.length := hcols .cl
  have hcd : q.cd.length = q.alpha.length := hcols .cd
  have hqne : q.alpha ≠ [] := by rintro h0; rw [h0] at hlast; cases hlast
  have hany : p.cm.any (fun c => !(c == 0)) = true := by
    obtain ⟨c, hc1, hc2⟩ := hne
    rw [List.any_eq_true]
    exact ⟨c, hc1, by simpa using hc2⟩
  have hlcm : p.cm.length = p.alpha.length := hp.len .cm
  unfold Polar.extrapolate at h
  rw [pyMax_ok p.cd (hp.col_ne .cd), pyLast_of hr.last, pyLast_of hr.cl1, pyLast_of hr.cd1, pyLast_of hr.cm1, pyFirst_of hr.first,
    pyFirst_of hr.cl0, pyFirst_of hr.cd0] at h
  by_cases c0 : cdmin < 0
  · rw [if_pos c0] at h; cases h
  rw [if_neg c0] at h
  obtain ⟨_, h1, h⟩ := bind_inv h
  cases h1
  obtain ⟨_, h1, h⟩ := bind_inv h
  cases h1
  obtain ⟨_, h1, h⟩ := bind_inv h
  cases h1
  obtain ⟨_, h1, h⟩ := bind_inv h
  cases h1
  obtain ⟨_, h1, h⟩ := bind_inv h
  cases h1
  obtain ⟨_, h1, h⟩ := bind_inv h
  cases h1
  obtain ⟨_, h1, h⟩ := bind_inv h
  cases h1
  obtain ⟨_, h1, h⟩ := bind_inv h
  cases h1
  by_cases c1 : (Num.pi : ℝ) / Num.nat 2 < deg2rad H
  · rw [if_pos c1] at h; cases h
  by_cases c2 : deg2rad L < -(Num.pi : ℝ) / Num.nat 2
  · rw [if_neg c1, if_pos c2] at h; cases h
  rw [if_neg c1, if_neg c2] at h
  simp only [hE] at h
  obtain ⟨t, ht, h⟩ := bind_inv h
  obtain ⟨cm, hcm, h⟩ := bind_inv h
  obtain rfl := Except.ok.inj h
  simp only at hcl hcd hqne
  unfold cmExtTable at ht
  obtain ⟨g2, hg2, ht⟩ := bind_inv ht
  rw [if_pos hany] at ht
  obtain ⟨cm0, hcm0, ht⟩ := bind_inv ht
  obtain ⟨cls, h1, ht⟩ := bind_inv ht
  obtain ⟨cds, h2, ht⟩ := bind_inv ht
  rw [npInterps_ok _ _ _ hcl hqne] at h1
  rw [npInterps_ok _ _ _ hcd hqne] at h2
  cases h1
  cases h2
  cases ht
  refine ⟨g2, cm0, hg2, hcm0, ?_⟩
  simp only at hcm ⊢
  rw [npInterps_ok _ _ _ (by simp [hlcm]) (by simp [hp.ne])] at hcm
  rw [← Except.ok.inj hcm]
  congr 2
  rw [List.zip_map', List.zipWith_map_right, List.zipWith_self]

/-- The tabulated moments with their angles -/
theorem moment_table (p : Polar ℝ) (hp : p.WF) (L H : ℝ) (hL : p.alpha.head? = some L) (hH : p.alpha.getLast? = some H)
    (h1 : -90 ≤ L) (h2 : H ≤ 90) (g2 : List ℝ) (hg : cmGridHigh H = .ok g2) (G : ℝ → CmOut ℝ)
    (hG : ∀ a, L ≤ a → a ≤ H → G a = .keep) :
    (cmGridLow L ++ p.alpha ++ g2).zip (List.zipWith (fun o old => CmOut.update o old) ((cmGridLow L ++ p.alpha ++ g2).map G)
      (List.replicate (cmGridLow L).length 0 ++ p.cm ++ List.replicate g2.length 0)) =
    tens (fun j => (G (10 * j)).update 0) (-18) ⌊L / 10⌋ ++ p.alpha.zip p.cm ++ tens (fun j => (G (10 * j)).update 0) ⌈H / 10⌉ 18 := by
  have hlcm : p.cm.length = p.alpha.length := hp.len .cm
  have hfl := first_last p hp L H hL hH
  have hmid : List.zipWith (fun o old => CmOut.update o old) (p.alpha.map G) p.cm = p.cm := by
    apply List.ext_getElem
    · simp [hlcm]
    · intro i h3 h4
      simp only [List.getElem_zipWith, List.getElem_map]
      obtain ⟨g1, g2⟩ := hfl p.alpha[i] (List.getElem_mem _)
      rw [hG _ g1 g2]
      rfl
  have hrep : ∀ g : List ℝ, List.zipWith (fun o old => CmOut.update o old) (g.map G) (List.replicate g.length 0) =
      g.map fun a => (G a).update 0 := by
    intro g
    apply List.ext_getElem
    · simp
    · intro i h3 h4
      simp
  rw [List.map_append, List.map_append, List.zipWith_append (by simp [hlcm]), List.zipWith_append (by simp), hmid, hrep, hrep,
    List.zip_append (by simp [hlcm]), List.zip_append (by simp)]
  congr 1
  · congr 1
    rw [cmGridLow_eq L h1, List.map_map]
    unfold tens
    rw [List.zip_map']
    have : (⌊L / 10⌋ + 1 - -18).toNat = (⌊L / 10⌋ + 19).toNat := by omega
    rw [this]
    refine List.map_congr_left fun i _ => ?_
    simp only [Function.comp]
    push_cast
    have : (-180 + 10 * (i : ℝ)) = 10 * (-18 + (i : ℝ)) := by ring
    rw [this]
  · rw [cmGridHigh_eq H h2] at hg
    obtain rfl := Except.ok.inj hg
    rw [List.map_map]
    unfold tens
    rw [List.zip_map']
    have : (18 + 1 - ⌈H / 10⌉).toNat = (19 - ⌈H / 10⌉).toNat := by omega
    rw [this]
    refine List.map_congr_left fun i _ => ?_
    simp only [Function.comp]
    push_cast
    have : (10 * (⌈H / 10⌉ : ℝ) + 10 * (i : ℝ)) = 10 * ((⌈H / 10⌉ : ℝ) + (i : ℝ)) := by ring
    rw [this]

/-- The moments of the result, row by row -/
theorem moment_values (p q : Polar ℝ) (hp : p.WF) (L H cmH : ℝ) (e : Ends ℝ) (hr : p.Rim L H e cmH) (cdmax : ℝ)
    (AR : Option ℝ) (cdmin : ℝ) (n : ℕ) (hn : 2 ≤ n) (h : p.extrapolate cdmax AR cdmin n = .ok q) (hne : ∃ c ∈ p.cm, c ≠ 0) :
    ∃ cm0 k M, p.ZeroLiftMoment cm0 ∧
      (0 < H → H < 90 → e.clHigh * Real.cos (H * (Real.pi / 180)) + e.cdHigh * Real.sin (H * (Real.pi / 180)) ≠ 0 →
        pitching cm0 k H e.clHigh e.cdHigh = cmH) ∧
      (∀ j : ℤ, -18 ≤ j → j ≤ 18 → 10 * j < L ∨ H < 10 * j →
        ∃ cl cd, q.At .cl (10 * j) cl ∧ q.At .cd (10 * j) cd ∧ MomentNode cm0 k (10 * j) cl cd (M j)) ∧
      (∀ j : ℤ, L ≤ 10 * j → 10 * j ≤ H → M j = 0) ∧
      ∃ grid table, grid.head? = some (-180) ∧ grid.getLast? = some 180 ∧ table.length = grid.length ∧
        grid.zip table = tens M (-18) ⌊L / 10⌋ ++ p.alpha.zip p.cm ++ tens M ⌈H / 10⌉ 18 ∧ q.cm = q.alpha.map (interpVal grid table) := by
  obtain ⟨h0, hi1, hi2, -⟩ := ok_cases p hp L H cmH e hr cdmax AR cdmin n q h
  obtain ⟨-, hhead, hlast, hcols, -⟩ := extrapolate_keeps p q hp cdmax AR cdmin n hn h
  obtain ⟨g2, cm0, hg, hz, hcm⟩ := extrapolate_moment_inv p q hp L H cmH e hr cdmax AR cdmin n hn h hne
  have hlcm : p.cm.length = p.alpha.length := hp.len .cm
  set G : ℝ → CmOut ℝ := fun a => getCM (cmCoeff e cmH cm0) cm0 L H a (interpVal q.alpha q.cl a) (interpVal q.alpha q.cd a) with hGdef
  have hG : ∀ a, L ≤ a → a ≤ H → G a = .keep := fun a g1 g2 => getCM_inside _ _ _ _ _ _ _ ⟨g1, g2⟩
  have htab := moment_table p hp L H hr.first hr.last hi2 hi1 g2 hg G hG
  refine ⟨cm0, cmCoeff e cmH cm0, fun j => (G (10 * j)).update 0, cmZero_spec p hp cm0 hz,
    fun g1 g2 g3 => cmCoeff_spec e H cmH cm0 hr.high g1 g2 g3, ?_, ?_, ?_⟩
  · intro j j1 j2 hj
    have b1 : (-18 : ℝ) ≤ j := by exact_mod_cast j1
    have b2 : (j : ℝ) ≤ 18 := by exact_mod_cast j2
    obtain ⟨m, g1, g2⟩ := getCM_node (cmCoeff e cmH cm0) cm0 L H (10 * j) (interpVal q.alpha q.cl (10 * j))
      (interpVal q.alpha q.cd (10 * j)) hj ⟨j, j1, j2, rfl⟩
    refine ⟨_, _, interpVal_between _ _ (hcols .cl) _ _ _ hhead hlast (by linarith) (by linarith),
      interpVal_between _ _ (hcols .cd) _ _ _ hhead hlast (by linarith) (by linarith), ?_⟩
    simp only [hGdef, Polar.col]
    rw [g1]
    exact g2
  · intro j g1 g2
    simp only [hG _ g1 g2]
    rfl
  · have hf : (-9 : ℤ) ≤ ⌊L / 10⌋ := Int.le_floor.mpr (by push_cast; linarith)
    have hc9 : ⌈H / 10⌉ ≤ 9 := Int.ceil_le.mpr (by push_cast; linarith)
    refine ⟨_, _, ?_, ?_, ?_, htab, hcm⟩
    · rw [cmGridLow_eq L hi2]
      obtain ⟨m, hm⟩ : ∃ m, (⌊L / 10⌋ + 19).toNat = m + 1 := ⟨(⌊L / 10⌋ + 18).toNat, by omega⟩
      rw [hm, List.range_succ_eq_map]
      simp
    · rw [cmGridHigh_eq H hi1] at hg
      obtain rfl := Except.ok.inj hg
      obtain ⟨m, hm⟩ : ∃ m, (19 - ⌈H / 10⌉).toNat = m + 1 := ⟨(18 - ⌈H / 10⌉).toNat, by omega⟩
      rw [hm, List.range_succ, List.map_append, ← List.append_assoc, List.getLast?_append]
      simp only [List.map_cons, List.map_nil, List.getLast?_singleton, Option.some_or, Option.some.injEq]
      have : ((m : ℤ)) = 18 - ⌈H / 10⌉ := by omega
      have : ((m : ℝ)) = 18 - (⌈H / 10⌉ : ℝ) := by exact_mod_cast this
      rw [this]
      ring
    · simp [hlcm]

/-- **C88** The moment column of the result lies on the polyline through the data and the moments tabulated at the multiples of ten
degrees from -180 to the start of the data and from the end of the data to 180.  Outside the data these are 0, -0.5 and 0.4 near ±180
degrees, and otherwise the moment of the normal force about a point that moves with the angle; the curve passes through the last row
of the data; negative angles are treated as mirror images (partial: a multiple of ten at which the data begin or end has moment 0, see
`moment_join_lost`). -/
theorem moment_curve_partial (p q : Polar ℝ) (hp : p.WF) (L H clH cdH cmH : ℝ) (hL : p.alpha.head? = some L)
    (hH : p.alpha.getLast? = some H) (hclH : p.cl.getLast? = some clH) (hcdH : p.cd.getLast? = some cdH)
    (hcmH : p.cm.getLast? = some cmH) (cdmax : ℝ) (AR : Option ℝ) (cdmin : ℝ) (n : ℕ) (hn : 2 ≤ n)
    (h : p.extrapolate cdmax AR cdmin n = .ok q) (hne : ∃ c ∈ p.cm, c ≠ 0) :
    ∃ cm0 k M, p.ZeroLiftMoment cm0 ∧
      (0 < H → H < 90 → clH * Real.cos (H * (Real.pi / 180)) + cdH * Real.sin (H * (Real.pi / 180)) ≠ 0 →
        pitching cm0 k H clH cdH = cmH) ∧
      (∀ j : ℤ, -18 ≤ j → j ≤ 18 → 10 * j < L ∨ H < 10 * j →
        ∃ cl cd, q.At .cl (10 * j) cl ∧ q.At .cd (10 * j) cd ∧ MomentNode cm0 k (10 * j) cl cd (M j)) ∧
      (∀ j : ℤ, L ≤ 10 * j → 10 * j ≤ H → M j = 0) ∧
      ∀ (i : ℕ) (a c : ℝ), q.alpha[i]? = some a → q.cm[i]? = some c → -180 ≤ a → a ≤ 180 →
        OnPolyline (tens M (-18) ⌊L / 10⌋ ++ p.alpha.zip p.cm ++ tens M ⌈H / 10⌉ 18) a c := by
  obtain ⟨L', H', e, cmH', hr⟩ := exists_rim p hp
  obtain rfl : L' = L := by have := hr.first; rw [hL] at this; exact (Option.some.inj this).symm
  obtain rfl : H' = H := by have := hr.last; rw [hH] at this; exact (Option.some.inj this).symm
  obtain rfl : cmH' = cmH := by have := hr.cm1; rw [hcmH] at this; exact (Option.some.inj this).symm
  obtain rfl : e.clHigh = clH := by have := hr.cl1; rw [hclH] at this; exact (Option.some.inj this).symm
  obtain rfl : e.cdHigh = cdH := by have := hr.cd1; rw [hcdH] at this; exact (Option.some.inj this).symm
  obtain ⟨cm0, k, M, h1, h2, h3, h4, grid, table, g1, g2, g3, g4, g5⟩ :=
    moment_values p q hp L' H' cmH' e hr cdmax AR cdmin n hn h hne
  refine ⟨cm0, k, M, h1, h2, h3, h4, fun i a c ha hc a1 a2 => ?_⟩
  rw [g5, List.getElem?_map, ha] at hc
  obtain rfl := Option.some.inj hc
  rw [← g4]
  exact interpVal_between _ _ g3 a (-180) 180 g1 g2 a1 a2

theorem interpFrom_seg (x : ℝ) (u w : ℝ × ℝ) (B : List (ℝ × ℝ)) (hu : u.1 ≤ x) (hw : x < w.1) : ∀ (A : List (ℝ × ℝ)) (p : ℝ × ℝ),
    (∀ a ∈ A, a.1 ≤ x) → interpFrom x p (A ++ u :: w :: B) = (w.2 - u.2) / (w.1 - u.1) * (x - u.1) + u.2
  | [], p, _ => by simp [interpFrom, not_lt.mpr hu, hw]
  | a :: A, p, hA => by
    simp only [List.cons_append, interpFrom, if_neg (not_lt.mpr (hA a (by simp)))]
    exact interpFrom_seg x u w B hu hw A a fun b hb => hA b (by simp [hb])

theorem interpVal_seg (xp fp : List ℝ) (A B : List (ℝ × ℝ)) (u w : ℝ × ℝ) (x : ℝ) (hz : xp.zip fp = A ++ u :: w :: B)
    (hA : ∀ a ∈ A, a.1 ≤ x) (hu : u.1 ≤ x) (hw : x < w.1) :
    interpVal xp fp x = (w.2 - u.2) / (w.1 - u.1) * (x - u.1) + u.2 := by
  unfold interpVal
  rw [hz]
  cases A with
  | nil => simp [interpFrom, not_lt.mpr hu, hw]
  | cons a A =>
    simp only [List.cons_append, if_neg (not_lt.mpr (hA a (by simp)))]
    exact interpFrom_seg x u w B hu hw A a fun b hb => hA b (by simp [hb])

theorem tens_snoc (M : ℤ → ℝ) (lo hi : ℤ) (h : lo ≤ hi) : tens M lo hi = tens M lo (hi - 1) ++ [(10 * (hi : ℝ), M hi)] := by
  unfold tens
  obtain ⟨m, hm⟩ : ∃ m : ℕ, (m : ℤ) = hi - lo := ⟨(hi - lo).toNat, by omega⟩
  rw [show (hi + 1 - lo).toNat = m + 1 by omega, show (hi - 1 + 1 - lo).toNat = m by omega, List.range_succ, List.map_append]
  simp only [List.map_cons, List.map_nil]
  rw [show lo + (m : ℤ) = hi by omega]

theorem tens_cons (M : ℤ → ℝ) (lo hi : ℤ) (h : lo ≤ hi) : tens M lo hi = (10 * (lo : ℝ), M lo) :: tens M (lo + 1) hi := by
  unfold tens
  obtain ⟨m, hm⟩ : ∃ m : ℕ, (m : ℤ) = hi - lo := ⟨(hi - lo).toNat, by omega⟩
  rw [show (hi + 1 - lo).toNat = m + 1 by omega, show (hi + 1 - (lo + 1)).toNat = m by omega, List.range_succ_eq_map]
  simp only [List.map_cons, List.map_map]
  congr 1
  · simp
  · refine List.map_congr_left fun i _ => ?_
    simp only [Function.comp]
    push_cast
    rw [show lo + ((i : ℤ) + 1) = lo + 1 + i by ring]
    congr 1
    ring

theorem tens_le (M : ℤ → ℝ) (lo hi : ℤ) : ∀ a ∈ tens M lo hi, a.1 ≤ 10 * (hi : ℝ) := by
  intro a ha
  obtain ⟨i, hi', rfl⟩ := List.mem_map.mp ha
  have hi'' : i < (hi + 1 - lo).toNat := by simpa using hi'
  have : lo + (i : ℤ) ≤ hi := by omega
  have : ((lo + i : ℤ) : ℝ) ≤ hi := by exact_mod_cast this
  simp only
  linarith

/-- **C88** Data beginning or ending at a multiple of ten degrees are not continued: towards the data the extrapolated moments tend
to 0, linearly in the angle, whatever the moment of the data is there. -/
theorem moment_join_lost (p q : Polar ℝ) (hp : p.WF) (L H : ℝ) (hL : p.alpha.head? = some L) (hH : p.alpha.getLast? = some H)
    (cdmax : ℝ) (AR : Option ℝ) (cdmin : ℝ) (n : ℕ) (hn : 2 ≤ n) (h : p.extrapolate cdmax AR cdmin n = .ok q)
    (hne : ∃ c ∈ p.cm, c ≠ 0) :
    (∀ m : ℤ, L = 10 * m → ∃ s, ∀ (i : ℕ) (a : ℝ), q.alpha[i]? = some a → L - 10 ≤ a → a < L → q.cm[i]? = some (s * (L - a))) ∧
    ∀ m : ℤ, H = 10 * m → ∃ s, ∀ (i : ℕ) (a : ℝ), q.alpha[i]? = some a → H < a → a < H + 10 → q.cm[i]? = some (s * (a - H)) := by
  obtain ⟨L', H', e, cmH, hr⟩ := exists_rim p hp
  obtain rfl : L' = L := by have := hr.first; rw [hL] at this; exact (Option.some.inj this).symm
  obtain rfl : H' = H := by have := hr.last; rw [hH] at this; exact (Option.some.inj this).symm
  obtain ⟨h0, hi1, hi2, -⟩ := ok_cases p hp L' H' cmH e hr cdmax AR cdmin n q h
  obtain ⟨cm0, k, M, -, -, -, h4, grid, table, -, -, -, g4, g5⟩ :=
    moment_values p q hp L' H' cmH e hr cdmax AR cdmin n hn h hne
  have hfl := first_last p hp L' H' hL hH
  have hLH : L' ≤ H' := (hfl L' (List.mem_of_head? hL)).2
  constructor
  · intro m hm
    have hfloor : ⌊L' / 10⌋ = m := by
      rw [hm, show (10 * (m : ℝ)) / 10 = m by ring, Int.floor_intCast]
    have hm9 : (-9 : ℤ) ≤ m := by
      have : (-9 : ℝ) ≤ m := by linarith
      exact_mod_cast this
    have h0m : M m = 0 := h4 m hm.le (by rw [← hm]; exact hLH)
    refine ⟨M (m - 1) / 10, fun i a ha a1 a2 => ?_⟩
    rw [g5, List.getElem?_map, ha, Option.map_some]
    rw [hfloor, tens_snoc M (-18) m (by omega), tens_snoc M (-18) (m - 1) (by omega)] at g4
    rw [interpVal_seg grid table (tens M (-18) (m - 1 - 1)) (p.alpha.zip p.cm ++ tens M ⌈H' / 10⌉ 18) (10 * ((m - 1 : ℤ) : ℝ), M (m - 1))
      (10 * (m : ℝ), M m) a (by rw [g4]; simp) ?_ ?_ (by rw [← hm]; exact a2)]
    · congr 1
      simp only [h0m]
      push_cast
      rw [hm]
      ring
    · intro b hb
      have := tens_le M _ _ b hb
      push_cast at this
      linarith
    · push_cast
      linarith
  · intro m hm
    have hceil : ⌈H' / 10⌉ = m := by
      rw [hm, show (10 * (m : ℝ)) / 10 = m by ring, Int.ceil_intCast]
    have hm9 : m ≤ 9 := by
      have : (m : ℝ) ≤ 9 := by linarith
      exact_mod_cast this
    have h0m : M m = 0 := h4 m (by rw [← hm]; exact hLH) hm.ge
    refine ⟨M (m + 1) / 10, fun i a ha a1 a2 => ?_⟩
    rw [g5, List.getElem?_map, ha, Option.map_some]
    rw [hceil, tens_cons M m 18 (by omega), tens_cons M (m + 1) 18 (by omega)] at g4
    rw [interpVal_seg grid table (tens M (-18) ⌊L' / 10⌋ ++ p.alpha.zip p.cm) (tens M (m + 1 + 1) 18) (10 * (m : ℝ), M m)
      (10 * ((m + 1 : ℤ) : ℝ), M (m + 1)) a (by rw [g4]) ?_ (by simp only; rw [← hm]; exact a1.le) (by push_cast; linarith)]
    · congr 1
      simp only [h0m]
      push_cast
      rw [hm]
      ring
    · intro b hb
      rcases List.mem_append.mp hb with hb | hb
      · have := tens_le M _ _ b hb
        have := Int.floor_le (L' / 10)
        linarith
      · have := (hfl b.1 (List.of_mem_zip (show (b.1, b.2) ∈ _ from hb)).1).2
        linarith

/-- The hypotheses are met; at 170 degrees the moment curve of the sample has the value -0.5, at 20 degrees the moment of the normal
force. -/
example : ∃ q cm0 k, ∃ M : ℤ → ℝ, cambered.extrapolate 1 none (1 / 1000) 15 = .ok q ∧ M 17 = -1 / 2 ∧ M (-17) = 2 / 5 ∧
    ∃ cl cd, M 2 = pitching cm0 k 20 cl cd := by
  obtain ⟨q, h⟩ := cambered_ok
  obtain ⟨cm0, k, M, -, -, h3, -, -⟩ := moment_curve_partial cambered q cambered_wf (-5) 15 2 1 3 rfl rfl rfl rfl rfl 1 none _ 15
    (by norm_num) h ⟨1, by simp [cambered], one_ne_zero⟩
  obtain ⟨_, _, -, -, n1⟩ := h3 17 (by norm_num) (by norm_num) (by norm_num)
  obtain ⟨_, _, -, -, n2⟩ := h3 (-17) (by norm_num) (by norm_num) (by norm_num)
  obtain ⟨cl, cd, -, -, n3⟩ := h3 2 (by norm_num) (by norm_num) (by norm_num)
  refine ⟨q, cm0, k, M, h, n1.back1 (by norm_num), n2.back2 (by norm_num), cl, cd, ?_⟩
  have := n3.pos (by norm_num) (by norm_num)
  rw [this]
  norm_num

/-- The sample ending at 20 degrees with moment -1: moments just above 20 degrees are small. -/
example : ∃ q, ending20.extrapolate 1 none (1 / 1000) 15 = .ok q ∧ ending20.cm.getLast? = some (-1) ∧
    ∃ s, ∀ (i : ℕ) (a : ℝ), q.alpha[i]? = some a → 20 < a → a < 30 → q.cm[i]? = some (s * (a - 20)) := by
  have hwf : ending20.WF := ⟨by simp [ending20], by norm_num [ending20], by intro c; cases c <;> rfl⟩
  obtain ⟨_, _, _, _, _, h⟩ := extrapolate_ok ending20 hwf (-5) 20 (-1) ⟨deg2rad 20, 2, 1, deg2rad (-5), 0, 1⟩
    ⟨rfl, rfl, rfl, rfl, rfl, rfl, rfl, rfl, rfl⟩ 1 none (1 / 1000) 15 (by norm_num) (by norm_num) (by norm_num)
    (.inl (by simp [ending20]))
  obtain ⟨-, h2⟩ := moment_join_lost ending20 _ hwf (-5) 20 rfl rfl 1 none _ 15 (by norm_num) h ⟨1, by simp [ending20], one_ne_zero⟩
  obtain ⟨s, hs⟩ := h2 2 (by norm_num)
  exact ⟨_, h, rfl, s, fun i a h1 h2 h3 => hs i a h1 h2 (by linarith)⟩

end Verif
