import Verif.Model.Lengths
import Verif.Props.Constructor
import Verif.Props.Continuity
import Verif.Props.Solve
import Verif.Props.Twist

/-!
# Blade data of different lengths (C129)
-/

namespace Verif

variable {α : Type}

/-- Specification: the lists belong to a blade with `n` stations. -/
def BladeLists.Fit (b : BladeLists α) (n : ℕ) : Prop := b.chord.length = n ∧ b.theta.length = n ∧ b.af.length = n

/-- Every station has its data. -/
def BladeLists.Cover (b : BladeLists α) (n : ℕ) : Prop := n ≤ b.chord.length ∧ n ≤ b.theta.length ∧ n ≤ b.af.length

/-- The same blade with more entries at the end of the lists -/
def BladeLists.longer (b : BladeLists α) (c t : List α) (f : List (AirfoilI α)) : BladeLists α := ⟨b.chord ++ c, b.theta ++ t, b.af ++ f⟩

/-- The arguments whose blade data are the first `n` entries of the lists -/
structure CCArgs.Reads (x : CCArgs α) (b : BladeLists α) : Prop where
  chord : ∀ i < x.n, b.chord[i]? = some (x.chord i)
  theta : ∀ i < x.n, b.theta[i]? = some (x.theta i)
  af : ∀ i < x.n, b.af[i]? = some (x.af i)

/-- A call of the constructor with these lists, and of `distributedAeroLoads` on the object -/
def CCArgs.loadsListed [Num α] (bq : RootFinder α) (x : CCArgs α) (b : BladeLists α) (Uinf Omega pitch azimuth : α) : Except PyErr (LoadsOut α) :=
  match x.buildListed b with
  | .error e => .error e
  | .ok R => (R.distributedAeroLoads bq Uinf Omega pitch azimuth).2

/-- The same with data of one length -/
def CCArgs.loadsPlain [Num α] (bq : RootFinder α) (x : CCArgs α) (Uinf Omega pitch azimuth : α) : Except PyErr (LoadsOut α) :=
  match x.build with
  | .error e => .error e
  | .ok R => (distributedAeroLoads bq R Uinf Omega pitch azimuth).2

/-- A call of the constructor with these lists, and of `evaluate` on the object -/
def CCArgs.evaluateListed [Num α] (bq : RootFinder α) (x : CCArgs α) (b : BladeLists α) (cs : List (Cond α)) (co : Bool) : Except PyErr (EvalOut α) :=
  match x.buildListed b with
  | .error e => .error e
  | .ok R => R.evaluate bq cs co

/-- The same with data of one length -/
def CCArgs.evaluatePlain [Num α] (bq : RootFinder α) (x : CCArgs α) (cs : List (Cond α)) (co : Bool) : Except PyErr (EvalOut α) :=
  match x.build with
  | .error e => .error e
  | .ok R => (evaluate bq R cs co).2

variable [Num α]

/-! ## Helpers -/

theorem bemPasses_uniform (R : Rotor α) (c t : α) (f : AirfoilI α) (pitch phi : α) (x : Sec α) : ∀ (k : ℕ) (o : BemOut α),
    bemPasses (R.uniform c t f) pitch phi x k o = bemPasses R pitch phi x k o
  | 0, _ => rfl
  | k + 1, _ => bemPasses_uniform R c t f pitch phi x k _

theorem runBEM_uniform (R : Rotor α) (c t : α) (f : AirfoilI α) (pitch phi : α) (x : Sec α) :
    runBEM (R.uniform c t f) pitch phi x = runBEM R pitch phi x := bemPasses_uniform R c t f pitch phi x _ _

theorem solveStation_uniform (bq : RootFinder α) (R : Rotor α) (pitch Omega : α) (V : ℕ → α × α) (i : ℕ) (hinv : R.inv = none) :
    solveStation bq (R.uniform (R.chord i) (R.theta i) (R.af i)) pitch Omega V i = solveStation bq R pitch Omega V i := by
  set R' := R.uniform (R.chord i) (R.theta i) (R.af i) with hR'
  have hinv' : R'.inv = none := hinv
  have e1 : ∀ phi, stationTheta R' pitch phi i = stationTheta R pitch phi i := fun phi => by
    simp only [stationTheta, hinv, hinv']
    rfl
  have e2 : stationErrf R' pitch V i = stationErrf R pitch V i := by
    simp only [stationErrf, hinv, hinv']
    funext phi
    simp only [errFun, hR', runBEM_uniform]
    rfl
  have e3 : stationPhi bq R' pitch Omega V i = stationPhi bq R pitch Omega V i := by
    simp only [stationPhi, e2]
    rfl
  have e4 : ∀ phi b x, secValues R' pitch phi b x = secValues R pitch phi b x := fun phi b x => by
    simp only [secValues, hR', runBEM_uniform]
    rfl
  have e5 : ∀ phi b x, secLoads R' pitch phi b x = secLoads R pitch phi b x := fun phi b x => by
    have e6 : ∀ v, secDerivs R' pitch phi b x v = secDerivs R pitch phi b x v := fun v => rfl
    simp only [secLoads, e4, e6]
    rfl
  simp only [solveStation, e1, e3, e5]
  rfl

theorem listed_solveStations (bq : RootFinder α) (S : ListedRotor α) (R : Rotor α) (hb : ∀ c t f, S.base.uniform c t f = R.uniform c t f)
    (hinv : R.inv = none) (pitch Omega : α) (V : ℕ → α × α) : ∀ k, (∀ i < k, S.chord[i]? = some (R.chord i) ∧ S.theta[i]? = some (R.theta i) ∧
      S.af[i]? = some (R.af i)) → S.solveStations bq pitch Omega V k = solveStations bq R pitch Omega V k
  | 0, _ => rfl
  | k + 1, h => by
    have ih := listed_solveStations bq S R hb hinv pitch Omega V k fun i hi => h i (by omega)
    obtain ⟨h1, h2, h3⟩ := h k (by omega)
    simp only [ListedRotor.solveStations, solveStations, ih, ListedRotor.solveStation, h1, h2, h3, hb, solveStation_uniform bq R pitch Omega V k hinv]

theorem listed_short_stations (bq : RootFinder α) (S : ListedRotor α) (pitch Omega : α) (V : ℕ → α × α) (i : ℕ)
    (hi : S.solveStation bq pitch Omega V i = .error .indexError) (k : ℕ) (h : i < k) : ∃ e, S.solveStations bq pitch Omega V k = .error e := by
  induction k with
  | zero => omega
  | succ k ih =>
    simp only [ListedRotor.solveStations]
    rcases Nat.lt_or_ge i k with g | g
    · obtain ⟨e, he⟩ := ih g
      exact ⟨e, by rw [he]; rfl⟩
    · obtain rfl : i = k := by omega
      rw [hi]
      cases S.solveStations bq pitch Omega V i with
      | error e => exact ⟨e, rfl⟩
      | ok s => exact ⟨_, rfl⟩

theorem build_lists {x : CCArgs α} {R : Rotor α} (h : x.build = .ok R) (c t : ℕ → α) (f : ℕ → AirfoilI α) :
    R.n = x.n ∧ R.af = x.af ∧ R.inv = none ∧ R.iterRe = x.iterRe ∧ R.derivatives = x.derivatives ∧
      CCArgs.build { x with chord := c, theta := t, af := f } = .ok { R with chord := c, theta := fun i => deg2rad (t i), af := f } := by
  unfold CCArgs.build at h ⊢
  by_cases hn : x.n = 0
  · simp [hn, throw, throwThe, MonadExceptOf.throw, bind, Except.bind] at h
  · simp only [hn, if_false, bind, Except.bind, pure, Except.pure] at h ⊢
    split at h
    · exact absurd h (by simp)
    · split at h
      · exact absurd h (by simp)
      · split at h
        · exact absurd h (by simp)
        · split at h
          · exact absurd h (by simp)
          · simp only [Except.ok.injEq] at h
            subst h
            exact ⟨rfl, rfl, rfl, rfl, rfl, rfl⟩

theorem solveStation_runs {bq : RootFinder α} (hbq : OnlyValueError bq) (R : Rotor α) (pitch Omega : α) (V : ℕ → α × α) (i : ℕ) (hiter : R.iterRe ≠ 0)
    (hd : R.derivatives = false) (hrot : (Omega == 0) = false) : ∃ s, solveStation bq R pitch Omega V i = .ok s := by
  obtain ⟨phi, w, h1, -⟩ := solvePhi_found hbq (stationErrf R pitch V i)
  have h3 : stationPhi bq R pitch Omega V i = .ok (phi, w) := by simp only [stationPhi, hrot, hiter, if_false, Bool.false_eq_true, h1]
  simp only [solveStation, h3, secLoads, hd, hrot, Bool.false_and, Bool.false_eq_true, if_false, Bool.and_false]
  split_ifs <;> exact ⟨_, rfl⟩

theorem listed_only_index (bq : RootFinder α) (hbq : OnlyValueError bq) (S : ListedRotor α) (pitch Omega : α) (V : ℕ → α × α)
    (hiter : S.base.iterRe ≠ 0) (hd : S.base.derivatives = false) (hrot : (Omega == 0) = false) (k : ℕ) :
    (∃ l, S.solveStations bq pitch Omega V k = .ok l) ∨ S.solveStations bq pitch Omega V k = .error .indexError := by
  induction k with
  | zero => exact .inl ⟨_, rfl⟩
  | succ k ih =>
    simp only [ListedRotor.solveStations]
    rcases ih with ⟨l, hl⟩ | hl
    · rw [hl]
      unfold ListedRotor.solveStation
      split
      · rename_i c t f _ _ _
        obtain ⟨s, hs⟩ := solveStation_runs hbq (S.base.uniform c t f) pitch Omega V k hiter hd hrot
        rw [hs]
        exact .inl ⟨_, rfl⟩
      · exact .inr rfl
    · rw [hl]
      exact .inr rfl

theorem listed_solveStations_same (bq : RootFinder α) (S S' : ListedRotor α) (hb : S'.base = S.base) (pitch Omega : α) (V : ℕ → α × α) : ∀ k,
    (∀ i < k, S'.chord[i]? = S.chord[i]? ∧ S'.theta[i]? = S.theta[i]? ∧ S'.af[i]? = S.af[i]?) →
      S'.solveStations bq pitch Omega V k = S.solveStations bq pitch Omega V k
  | 0, _ => rfl
  | k + 1, h => by
    have ih := listed_solveStations_same bq S S' hb pitch Omega V k fun i hi => h i (by omega)
    obtain ⟨h1, h2, h3⟩ := h k (by omega)
    simp only [ListedRotor.solveStations, ih, ListedRotor.solveStation, h1, h2, h3, hb]

/-- Lists with the data of the object itself -/
structure ListedRotor.Agree (S : ListedRotor α) : Prop where
  inv : S.base.inv = none
  chord : ∀ i < S.base.n, S.chord[i]? = some (S.base.chord i)
  theta : ∀ i < S.base.n, S.theta[i]? = some (S.base.theta i)
  af : ∀ i < S.base.n, S.af[i]? = some (S.base.af i)

theorem agree_loads (bq : RootFinder α) (S : ListedRotor α) (h : S.Agree) (Uinf Omega pitch azimuth : α) :
    ((S.distributedAeroLoads bq Uinf Omega pitch azimuth).1.Agree ∧
      (S.distributedAeroLoads bq Uinf Omega pitch azimuth).1.base = (distributedAeroLoads bq S.base Uinf Omega pitch azimuth).1) ∧
      (S.distributedAeroLoads bq Uinf Omega pitch azimuth).2 = (distributedAeroLoads bq S.base Uinf Omega pitch azimuth).2 := by
  have key := listed_solveStations bq S S.base (fun _ _ _ => rfl) h.inv (deg2rad pitch) Omega (rotorWind S.base Uinf Omega (deg2rad azimuth)) S.base.n
    fun i hi => ⟨h.chord i hi, h.theta i hi, h.af i hi⟩
  simp only [ListedRotor.distributedAeroLoads, distributedAeroLoads, key]
  cases solveStations bq S.base (deg2rad pitch) Omega (rotorWind S.base Uinf Omega (deg2rad azimuth)) S.base.n with
  | error e => exact ⟨⟨⟨h.inv, h.chord, h.theta, h.af⟩, rfl⟩, rfl⟩
  | ok s =>
    simp only [h.inv]
    split_ifs
    · exact ⟨⟨⟨rfl, h.chord, h.theta, h.af⟩, rfl⟩, rfl⟩
    · exact ⟨⟨⟨rfl, h.chord, h.theta, h.af⟩, rfl⟩, rfl⟩

theorem agree_sectorLoop (bq : RootFinder α) (Uinf Omega pitch : α) : ∀ (az : List α) (S : ListedRotor α) (acc : RotorAcc α), S.Agree →
    ((ListedRotor.sectorLoop bq Uinf Omega pitch az S acc).1.Agree ∧
      (ListedRotor.sectorLoop bq Uinf Omega pitch az S acc).1.base = (sectorLoop bq Uinf Omega pitch az S.base acc).1) ∧
      (ListedRotor.sectorLoop bq Uinf Omega pitch az S acc).2 = (sectorLoop bq Uinf Omega pitch az S.base acc).2
  | [], S, acc, h => ⟨⟨h, rfl⟩, rfl⟩
  | az :: rest, S, acc, h => by
    obtain ⟨⟨h1, h2⟩, h3⟩ := agree_loads bq S h Uinf Omega pitch (rad2deg az)
    simp only [ListedRotor.sectorLoop, sectorLoop]
    generalize S.distributedAeroLoads bq Uinf Omega pitch (rad2deg az) = A at h1 h2 h3
    generalize distributedAeroLoads bq S.base Uinf Omega pitch (rad2deg az) = B at h2 h3
    obtain ⟨A1, A2⟩ := A
    obtain ⟨B1, B2⟩ := B
    simp only at h1 h2 h3
    subst h2 h3
    cases A2 with
    | error e => exact ⟨⟨h1, rfl⟩, rfl⟩
    | ok L => exact agree_sectorLoop bq Uinf Omega pitch rest A1 _ h1

theorem agree_condLoop (bq : RootFinder α) : ∀ (cs : List (Cond α)) (S : ListedRotor α), S.Agree →
    (ListedRotor.condLoop bq cs S).2 = (condLoop bq cs S.base).2
  | [], _, _ => rfl
  | c :: rest, S, h => by
    obtain ⟨⟨h1, h2⟩, h3⟩ := agree_sectorLoop bq c.Uinf c.Omega c.pitch (azimuthAngles S.base.nSector) S .zero h
    simp only [ListedRotor.condLoop, condLoop]
    generalize ListedRotor.sectorLoop bq c.Uinf c.Omega c.pitch (azimuthAngles S.base.nSector) S .zero = A at h1 h2 h3
    generalize sectorLoop bq c.Uinf c.Omega c.pitch (azimuthAngles S.base.nSector) S.base .zero = B at h2 h3
    obtain ⟨A1, A2⟩ := A
    obtain ⟨B1, B2⟩ := B
    simp only at h1 h2 h3
    subst h2 h3
    cases A2 with
    | error e => rfl
    | ok acc =>
      have ih := agree_condLoop bq rest A1 h1
      simp only
      generalize ListedRotor.condLoop bq rest A1 = C at ih
      generalize condLoop bq rest A1.base = D at ih
      obtain ⟨C1, C2⟩ := C
      obtain ⟨D1, D2⟩ := D
      simp only at ih
      subst ih
      cases C2 <;> rfl

theorem agree_evaluate (bq : RootFinder α) (S : ListedRotor α) (h : S.Agree) (cs : List (Cond α)) (co : Bool) :
    S.evaluate bq cs co = (evaluate bq S.base cs co).2 := by
  have key := agree_condLoop bq cs S h
  unfold ListedRotor.evaluate evaluate
  generalize ListedRotor.condLoop bq cs S = C at key
  generalize condLoop bq cs S.base = D at key
  obtain ⟨C1, C2⟩ := C
  obtain ⟨D1, D2⟩ := D
  simp only at key
  subst key
  cases C2 with
  | error e => rfl
  | ok accs =>
    simp only
    cases accs.getLast?.bind RotorAcc.W <;> rfl

theorem build_agree {x : CCArgs α} {R : Rotor α} (hx : x.build = .ok R) {b : BladeLists α} (h : x.Reads b) :
    ListedRotor.Agree ⟨R, b.chord, b.theta.map deg2rad, b.af⟩ := by
  obtain ⟨e1, e2, e3, -⟩ := build_lists hx x.chord x.theta x.af
  obtain ⟨-, -, -, -, f1, f2, -⟩ := build_fields hx
  refine ⟨e3, fun i hi => ?_, fun i hi => ?_, fun i hi => ?_⟩ <;> simp only [e1] at hi
  · rw [f1]
    exact h.chord i hi
  · simp only [f2, List.getElem?_map, h.theta i hi, Option.map_some]
  · rw [e2]
    exact h.af i hi

/-! ## The claim -/

/-- **C129** (partial) Lists with an entry for every station: the loads are those of the blade that the first entries describe.  With lists
of the right length these are all entries. -/
theorem listed_reads_partial (bq : RootFinder α) (x : CCArgs α) (b : BladeLists α) (h : x.Reads b) (Uinf Omega pitch azimuth : α) :
    x.loadsListed bq b Uinf Omega pitch azimuth = x.loadsPlain bq Uinf Omega pitch azimuth := by
  unfold CCArgs.loadsListed CCArgs.loadsPlain CCArgs.buildListed
  cases hx : x.build with
  | error e => rfl
  | ok R => exact (agree_loads bq _ (build_agree hx h) Uinf Omega pitch azimuth).2

/-- **C129** (partial) … and so are the results of `evaluate`. -/
theorem evaluate_reads_partial (bq : RootFinder α) (x : CCArgs α) (b : BladeLists α) (h : x.Reads b) (cs : List (Cond α)) (co : Bool) :
    x.evaluateListed bq b cs co = x.evaluatePlain bq cs co := by
  unfold CCArgs.evaluateListed CCArgs.evaluatePlain CCArgs.buildListed
  cases hx : x.build with
  | error e => rfl
  | ok R => exact agree_evaluate bq _ (build_agree hx h) cs co

/-- **C129** (partial) A list with fewer entries than there are radii: no loads are returned. -/
theorem listed_short_partial (bq : RootFinder α) (x : CCArgs α) (b : BladeLists α) (h : ¬ b.Cover x.n) (Uinf Omega pitch azimuth : α) :
    ∃ e, x.loadsListed bq b Uinf Omega pitch azimuth = .error e := by
  unfold CCArgs.loadsListed CCArgs.buildListed
  cases hx : x.build with
  | error e => exact ⟨e, rfl⟩
  | ok R =>
    obtain ⟨e1, -⟩ := build_lists hx x.chord x.theta x.af
    have hi : ∃ i < R.n, (b.chord[i]? = none ∨ b.theta[i]? = none ∨ b.af[i]? = none) := by
      rw [e1]
      simp only [BladeLists.Cover, not_and_or, not_le] at h
      rcases h with h | h | h
      · exact ⟨_, h, .inl (by simp)⟩
      · exact ⟨_, h, .inr (.inl (by simp))⟩
      · exact ⟨_, h, .inr (.inr (by simp))⟩
    obtain ⟨i, hi, hnone⟩ := hi
    obtain ⟨e, he⟩ := listed_short_stations bq ⟨R, b.chord, b.theta.map deg2rad, b.af⟩ (deg2rad pitch) Omega
      (rotorWind R Uinf Omega (deg2rad azimuth)) i (by
        simp only [ListedRotor.solveStation, List.getElem?_map]
        rcases hnone with g | g | g
        · simp only [g]
        · simp only [g, Option.map_none]
          split <;> simp_all
        · simp only [g]
          split <;> simp_all) R.n hi
    exact ⟨e, by simp only [ListedRotor.distributedAeroLoads, he]⟩

/-- **C129** (partial) … nor does `evaluate` return a result. -/
theorem evaluate_short_partial (bq : RootFinder α) (x : CCArgs α) (b : BladeLists α) (h : ¬ b.Cover x.n) (cs : List (Cond α)) (co : Bool) :
    ∃ e, x.evaluateListed bq b cs co = .error e := by
  have hl := listed_short_partial bq x b h
  unfold CCArgs.loadsListed CCArgs.buildListed at hl
  unfold CCArgs.evaluateListed CCArgs.buildListed
  cases hx : x.build with
  | error e => exact ⟨e, rfl⟩
  | ok R =>
    simp only [hx] at hl ⊢
    cases cs with
    | nil => exact ⟨_, rfl⟩
    | cons c rest =>
      obtain ⟨m, hm⟩ : ∃ m, R.nSector = m + 1 := by
        obtain ⟨hs, -⟩ := build_fields hx
        refine Nat.exists_eq_succ_of_ne_zero ?_
        rw [hs]
        split_ifs <;> omega
      obtain ⟨az, tl, ha⟩ : ∃ az tl, (azimuthAngles R.nSector : List α) = az :: tl := by
        cases hA : (azimuthAngles R.nSector : List α) with
        | nil =>
          have := congrArg List.length hA
          simp [azimuthAngles, arr, hm] at this
        | cons a l => exact ⟨a, l, rfl⟩
      obtain ⟨e, he⟩ := hl c.Uinf c.Omega c.pitch (rad2deg az)
      refine ⟨e, ?_⟩
      simp only [ListedRotor.evaluate, ListedRotor.condLoop, ha, ListedRotor.sectorLoop]
      generalize ListedRotor.distributedAeroLoads bq ⟨R, b.chord, b.theta.map deg2rad, b.af⟩ c.Uinf c.Omega c.pitch (rad2deg az) = A at he
      obtain ⟨A1, A2⟩ := A
      simp only at he
      subst he
      rfl

/-- **C129** (partial) On a turning rotor, without derivatives, the exception of `distributedAeroLoads` is `IndexError`. -/
theorem listed_short_index_partial (bq : RootFinder α) (hbq : OnlyValueError bq) (x : CCArgs α) (b : BladeLists α) (h : ¬ b.Cover x.n)
    (hiter : x.iterRe ≠ 0) (hd : x.derivatives = false) (Uinf Omega pitch azimuth : α) (hrot : (Omega == 0) = false) (hx : ∃ R, x.build = .ok R) :
    x.loadsListed bq b Uinf Omega pitch azimuth = .error .indexError := by
  obtain ⟨R, hR⟩ := hx
  obtain ⟨e, he⟩ := listed_short_partial bq x b h Uinf Omega pitch azimuth
  obtain ⟨-, -, -, e4, e5, -⟩ := build_lists hR x.chord x.theta x.af
  simp only [CCArgs.loadsListed, CCArgs.buildListed, hR, ListedRotor.distributedAeroLoads] at he ⊢
  rcases listed_only_index bq hbq ⟨R, b.chord, b.theta.map deg2rad, b.af⟩ (deg2rad pitch) Omega (rotorWind R Uinf Omega (deg2rad azimuth))
    (e4 ▸ hiter) (e5 ▸ hd) hrot R.n with ⟨l, hl⟩ | hl
  · rw [hl] at he
    simp only at he
    split_ifs at he
  · rw [hl]

/-- **C129** (fails) Whatever follows the entry for the last radius is ignored without a message: entries may be added to any of the lists. -/
theorem listed_longer (bq : RootFinder α) (x : CCArgs α) (b : BladeLists α) (h : b.Cover x.n) (c t : List α) (f : List (AirfoilI α))
    (Uinf Omega pitch azimuth : α) :
    x.loadsListed bq (b.longer c t f) Uinf Omega pitch azimuth = x.loadsListed bq b Uinf Omega pitch azimuth := by
  unfold CCArgs.loadsListed CCArgs.buildListed
  cases hx : x.build with
  | error e => rfl
  | ok R =>
    obtain ⟨e1, -⟩ := build_lists hx x.chord x.theta x.af
    have key := listed_solveStations_same bq ⟨R, b.chord, b.theta.map deg2rad, b.af⟩
      ⟨R, (b.longer c t f).chord, (b.longer c t f).theta.map deg2rad, (b.longer c t f).af⟩ rfl (deg2rad pitch) Omega
      (rotorWind R Uinf Omega (deg2rad azimuth)) R.n fun i hi => by
        rw [e1] at hi
        refine ⟨List.getElem?_append_left (hi.trans_le h.1), ?_, List.getElem?_append_left (hi.trans_le h.2.2)⟩
        simp only [BladeLists.longer, List.getElem?_map]
        rw [List.getElem?_append_left (hi.trans_le h.2.1)]
    simp only [ListedRotor.distributedAeroLoads, key]
    cases ListedRotor.solveStations bq ⟨R, b.chord, b.theta.map deg2rad, b.af⟩ (deg2rad pitch) Omega (rotorWind R Uinf Omega (deg2rad azimuth)) R.n with
    | error e => rfl
    | ok s =>
      simp only
      split_ifs <;> rfl

/-- **C129** (fails) … and `evaluate` does not notice them either. -/
theorem evaluate_longer (bq : RootFinder α) (x : CCArgs α) (b : BladeLists α) (h : x.Reads b) (c t : List α) (f : List (AirfoilI α))
    (cs : List (Cond α)) (co : Bool) : x.evaluateListed bq (b.longer c t f) cs co = x.evaluateListed bq b cs co := by
  have app : ∀ {β : Type} {l m : List β} {i : ℕ} {v : β}, l[i]? = some v → (l ++ m)[i]? = some v := fun {β l m i v} hl => by
    rw [List.getElem?_append_left (List.getElem?_eq_some_iff.mp hl).1, hl]
  rw [evaluate_reads_partial bq x b h, evaluate_reads_partial bq x _ ⟨fun i hi => app (h.chord i hi), fun i hi => app (h.theta i hi),
    fun i hi => app (h.af i hi)⟩]

/-! ## Examples -/

/-- The blade data of `demoArgs` as lists -/
noncomputable def demoLists : BladeLists ℝ := ⟨[1, 1, 1], [0, 0, 0], [demoArgs.af 0, demoArgs.af 0, demoArgs.af 0]⟩

theorem demoLists_reads : demoArgs.Reads demoLists := by
  refine ⟨?_, ?_, ?_⟩ <;> intro i (hi : i < 3) <;> interval_cases i <;> rfl

theorem demoArgs_loads : ∃ L, demoArgs.loadsPlain someRoot 10 10 0 0 = .ok L := by
  obtain ⟨R, hR⟩ := build_total demoArgs (by simp [demoArgs])
  obtain ⟨-, -, -, e4, e5, -⟩ := build_lists hR demoArgs.chord demoArgs.theta demoArgs.af
  obtain ⟨L, hL, -⟩ := distributedAeroLoads_finds someRoot someRoot_onlyValueError R 10 10 0 0 (by rw [e4]; simp [demoArgs])
    (by rw [e5]; simp [demoArgs]) (by simp [num_real])
  exact ⟨L, by simp only [CCArgs.loadsPlain, hR, hL]⟩

example : ∃ L, demoArgs.loadsListed someRoot demoLists 10 10 0 0 = .ok L ∧ demoLists.Fit demoArgs.n := by
  obtain ⟨L, hL⟩ := demoArgs_loads
  exact ⟨L, by rw [listed_reads_partial _ _ _ demoLists_reads, hL], rfl, rfl, rfl⟩

example : ∃ o, demoArgs.evaluateListed someRoot (demoLists.longer [2] [3, 4] []) [⟨10, 10, 0⟩] true = .ok o := by
  obtain ⟨R, hR⟩ := build_total demoArgs (by simp [demoArgs])
  obtain ⟨-, -, -, e4, e5, -⟩ := build_lists hR demoArgs.chord demoArgs.theta demoArgs.af
  obtain ⟨hs, -⟩ := build_fields hR
  obtain ⟨o, x, h1, -⟩ := evaluate_total someRoot_onlyValueError R ⟨10, 10, 0⟩ true (by rw [e4]; simp [demoArgs]) (by rw [e5]; simp [demoArgs])
    (by norm_num) (by rw [hs]; split_ifs <;> omega)
  exact ⟨o, by rw [evaluate_longer _ _ _ demoLists_reads, evaluate_reads_partial _ _ _ demoLists_reads, CCArgs.evaluatePlain, hR]; exact h1⟩

/-- A twist is missing. -/
example : ∃ e, demoArgs.evaluateListed someRoot ⟨[1, 1, 1], [0, 0], demoLists.af⟩ [⟨10, 10, 0⟩] true = .error e :=
  evaluate_short_partial someRoot _ _ (by simp [BladeLists.Cover, demoArgs]) _ _

/-- A chord is missing. -/
example : demoArgs.loadsListed someRoot ⟨[1, 1], [0, 0, 0], demoLists.af⟩ 10 10 0 0 = .error .indexError :=
  listed_short_index_partial someRoot someRoot_onlyValueError _ _ (by simp [BladeLists.Cover, demoArgs]) (by simp [demoArgs]) (by simp [demoArgs])
    10 10 0 0 (by simp [num_real]) (build_total demoArgs (by simp [demoArgs]))

/-- **C129** (fails) The lengths are not compared: loads are returned for three radii and four chords. -/
theorem lengths_compared_false : ¬ ∀ (bq : RootFinder ℝ) (x : CCArgs ℝ) (b : BladeLists ℝ) (Uinf Omega pitch azimuth : ℝ) (L : LoadsOut ℝ),
    x.loadsListed bq b Uinf Omega pitch azimuth = .ok L → b.Fit x.n := by
  intro h
  obtain ⟨L, hL⟩ := demoArgs_loads
  have e := listed_longer someRoot demoArgs demoLists ⟨le_rfl, le_rfl, le_rfl⟩ [2] [] [] 10 10 0 0
  rw [listed_reads_partial _ _ _ demoLists_reads, hL] at e
  have := (h _ _ _ _ _ _ _ _ e).1
  simp [BladeLists.longer, demoLists, demoArgs] at this

end Verif
