import Verif.Props.Tolerance
import Verif.Props.GeometryDeriv

/-! # C121: in attached flow the results vary continuously -/

open Real Filter Topology

namespace Verif

section
variable {ι : Type*} {l : Filter ι} {o : BemOpts} {B : ℕ}

/-! ## The section -/

theorem prandtl_tendsto_all {d R u : ι → ℝ} {d0 R0 p0 : ℝ} (hR0 : R0 ≠ 0) (hs : sin p0 ≠ 0) (hd : Tendsto d l (𝓝 d0)) (hR : Tendsto R l (𝓝 R0))
    (hu : Tendsto u l (𝓝 p0)) : Tendsto (fun n => prandtl B (d n) (R n) (u n)) l (𝓝 (prandtl B d0 R0 p0)) := by
  unfold prandtl
  refine Tendsto.const_mul _ ((continuous_arccos.tendsto _).comp ((continuous_exp.tendsto _).comp (Tendsto.neg ?_)))
  exact (hd.const_mul _).div (hR.mul ((continuous_sin.tendsto _).comp hu)) (mul_ne_zero hR0 hs)

/-- The data of a section that vary: radius, chord, hub and tip radius, lift and drag. -/
structure SectionData where
  r : ℝ
  chord : ℝ
  Rhub : ℝ
  Rtip : ℝ
  cl : ℝ → ℝ
  cd : ℝ → ℝ

/-- The section lies on the blade and its flow is attached. -/
structure SectionData.Attached (o : BemOpts) (B : ℕ) (S : SectionData) : Prop where
  hub : 0 < S.Rhub
  inner : S.Rhub < S.r
  outer : S.r < S.Rtip
  chord : 0 < S.chord
  flow : AttachedFlow o B S.r S.Rhub S.Rtip S.cl S.cd

noncomputable def SectionData.wake (o : BemOpts) (B : ℕ) (S : SectionData) : ℝ → ℝ := sectionWake o B S.r S.chord S.Rhub S.Rtip S.cl S.cd
noncomputable def SectionData.swirl (o : BemOpts) (B : ℕ) (S : SectionData) : ℝ → ℝ := sectionSwirl o B S.r S.chord S.Rhub S.Rtip S.cl S.cd

/-- The sections `S n` tend to the section `S0`; the coefficients do so at angles that converge. -/
structure SectionTends (l : Filter ι) (S : ι → SectionData) (S0 : SectionData) : Prop where
  r : Tendsto (fun n => (S n).r) l (𝓝 S0.r)
  chord : Tendsto (fun n => (S n).chord) l (𝓝 S0.chord)
  Rhub : Tendsto (fun n => (S n).Rhub) l (𝓝 S0.Rhub)
  Rtip : Tendsto (fun n => (S n).Rtip) l (𝓝 S0.Rtip)
  cl : ∀ (u : ι → ℝ) (p : ℝ), Tendsto u l (𝓝 p) → Tendsto (fun n => (S n).cl (u n)) l (𝓝 (S0.cl p))
  cd : ∀ (u : ι → ℝ) (p : ℝ), Tendsto u l (𝓝 p) → Tendsto (fun n => (S n).cd (u n)) l (𝓝 (S0.cd p))

variable {S : ι → SectionData} {S0 : SectionData}

theorem SectionTends.loss (T : SectionTends l S S0) (A : S0.Attached o B) {u : ι → ℝ} {p : ℝ} (hu : Tendsto u l (𝓝 p)) (hs : sin p ≠ 0) :
    Tendsto (fun n => lossSpec o B (S n).r (S n).Rhub (S n).Rtip (u n)) l (𝓝 (lossSpec o B S0.r S0.Rhub S0.Rtip p)) := by
  unfold lossSpec
  refine Tendsto.mul ?_ ?_
  · split_ifs
    · exact prandtl_tendsto_all (A.hub.trans A.inner).ne' hs (T.Rtip.sub T.r) T.r hu
    · exact tendsto_const_nhds
  · split_ifs
    · exact prandtl_tendsto_all A.hub.ne' hs (T.r.sub T.Rhub) T.Rhub hu
    · exact tendsto_const_nhds

theorem SectionTends.drag (T : SectionTends l S S0) {u : ι → ℝ} {p : ℝ} (hu : Tendsto u l (𝓝 p)) :
    Tendsto (fun n => usedDrag o (S n).cd (u n)) l (𝓝 (usedDrag o S0.cd p)) := by
  unfold usedDrag
  split_ifs
  · exact T.cd u p hu
  · exact tendsto_const_nhds

theorem SectionTends.solidity (T : SectionTends l S S0) (A : S0.Attached o B) :
    Tendsto (fun n => (B : ℝ) * (S n).chord / (2 * π * (S n).r) / 4) l (𝓝 (B * S0.chord / (2 * π * S0.r) / 4)) :=
  ((T.chord.const_mul _).div (T.r.const_mul _) (mul_pos (mul_pos two_pos pi_pos) (A.hub.trans A.inner)).ne').div_const 4

theorem SectionTends.wake (T : SectionTends l S S0) (hB : 0 < B) (A : S0.Attached o B) {u : ι → ℝ} {p : ℝ} (hu : Tendsto u l (𝓝 p))
    (hp : p ∈ Set.Ioo 0 (π / 2)) : Tendsto (fun n => (S n).wake o B (u n)) l (𝓝 (S0.wake o B p)) := by
  have hpi := pi_pos
  have hs : 0 < sin p := sin_pos_of_pos_of_lt_pi hp.1 (by linarith [hp.2])
  have hc : 0 < cos p := cos_pos_of_mem_Ioo ⟨by linarith [hp.1], hp.2⟩
  have hF := (lossSpec_range o B hB S0.r S0.Rhub S0.Rtip p A.hub A.inner A.outer hp.1 (by linarith [hp.2])).1
  have tF := T.loss A hu hs.ne'
  have ts : Tendsto (fun n => sin (u n)) l (𝓝 (sin p)) := (continuous_sin.tendsto p).comp hu
  have tc : Tendsto (fun n => cos (u n)) l (𝓝 (cos p)) := (continuous_cos.tendsto p).comp hu
  have tt : Tendsto (fun n => tan (u n)) l (𝓝 (tan p)) := (continuousAt_tan.mpr hc.ne').tendsto.comp hu
  refine tt.mul (wakeOf_tendsto hF tF ?_)
  unfold forceK
  exact (((T.solidity A).mul ((T.cl u p hu).add ((T.drag hu).mul tt))).mul tc).div (tF.mul (ts.pow 2)) (mul_pos hF (pow_pos hs 2)).ne'

theorem SectionTends.swirl (T : SectionTends l S S0) (hB : 0 < B) (A : S0.Attached o B) {u : ι → ℝ} {p : ℝ} (hu : Tendsto u l (𝓝 p))
    (hp : p ∈ Set.Ioo 0 (π / 2)) : Tendsto (fun n => (S n).swirl o B (u n)) l (𝓝 (S0.swirl o B p)) := by
  have hpi := pi_pos
  have hs : 0 < sin p := sin_pos_of_pos_of_lt_pi hp.1 (by linarith [hp.2])
  have hc : 0 < cos p := cos_pos_of_mem_Ioo ⟨by linarith [hp.1], hp.2⟩
  have hF := (lossSpec_range o B hB S0.r S0.Rhub S0.Rtip p A.hub A.inner A.outer hp.1 (by linarith [hp.2])).1
  have tF := T.loss A hu hs.ne'
  have ts : Tendsto (fun n => sin (u n)) l (𝓝 (sin p)) := (continuous_sin.tendsto p).comp hu
  have tc : Tendsto (fun n => cos (u n)) l (𝓝 (cos p)) := (continuous_cos.tendsto p).comp hu
  unfold SectionData.swirl sectionSwirl
  simp only
  split_ifs
  · exact (T.solidity A).mul (((T.cl u p hu).div (tF.mul tc) (mul_pos hF hc).ne').sub ((T.drag hu).div (tF.mul ts) (mul_pos hF hs).ne'))
  · exact tendsto_const_nhds

/-- The inflow angles with lift of converging sections in attached flow converge. -/
theorem SectionTends.angle (T : SectionTends l S S0) (hB : 0 < B) (A : ∀ n, (S n).Attached o B) (A0 : S0.Attached o B) {x p : ι → ℝ} {x0 p0 : ℝ}
    (hx0 : 0 < x0) (hx : Tendsto x l (𝓝 x0)) (hp : ∀ n, p n ∈ Set.Ioo 0 (π / 2)) (hp0 : p0 ∈ Set.Ioo 0 (π / 2)) (hcl : ∀ n, 0 ≤ (S n).cl (p n))
    (hcl0 : 0 ≤ S0.cl p0) (e : ∀ n, (S n).wake o B (p n) = x n * (1 - (S n).swirl o B (p n))) (e0 : S0.wake o B p0 = x0 * (1 - S0.swirl o B p0)) :
    Tendsto p l (𝓝 p0) := by
  have wlt : ∀ {D : SectionData} {a b}, D.Attached o B → 0 < a → a < b → b < π / 2 → 0 ≤ D.cl b → D.wake o B a < D.wake o B b :=
    fun h ha hab hb hcb => sectionWake_lt hB h.hub h.inner h.outer h.chord h.flow ha hab hb hcb
  have wle : ∀ {D : SectionData} {a b}, D.Attached o B → 0 < a → a ≤ b → b < π / 2 → 0 ≤ D.cl b → D.wake o B a ≤ D.wake o B b := fun h ha hab hb hcb => by
    rcases hab.eq_or_lt with rfl | hlt
    · exact le_rfl
    · exact (wlt h ha hlt hb hcb).le
  have Sle : ∀ {D : SectionData} {a b}, D.Attached o B → 0 < a → a ≤ b → b < π / 2 → 0 ≤ D.cl b → D.swirl o B a ≤ D.swirl o B b :=
    fun h ha hab hb hcb => sectionSwirl_mono hB h.hub h.inner h.outer h.chord h.flow ha hab hb hcb
  have hpos : ∀ᶠ n in l, 0 < x n := hx.eventually (eventually_gt_nhds hx0)
  have side : ∀ {a}, a ∈ Set.Ioo 0 (π / 2) →
      Tendsto (fun n => x n * (1 - (S n).swirl o B a) - (S n).wake o B a) l (𝓝 (x0 * (1 - S0.swirl o B a) - S0.wake o B a)) := fun ha =>
    (hx.mul ((T.swirl hB A0 tendsto_const_nhds ha).const_sub 1)).sub (T.wake hB A0 tendsto_const_nhds ha)
  refine tendsto_order.2 ⟨fun a ha => ?_, fun a ha => ?_⟩
  · rcases le_or_gt a 0 with h0 | h0
    · exact Eventually.of_forall fun n => lt_of_le_of_lt h0 (hp n).1
    have hlim : 0 < x0 * (1 - S0.swirl o B a) - S0.wake o B a := by
      have k1 := wlt A0 h0 ha hp0.2 hcl0
      have k2 := mul_le_mul_of_nonneg_left (Sle A0 h0 ha.le hp0.2 hcl0) hx0.le
      nlinarith
    filter_upwards [(side ⟨h0, ha.trans hp0.2⟩).eventually (eventually_gt_nhds hlim), hpos] with n hn hxn
    by_contra hge
    push Not at hge
    have hca : 0 ≤ (S n).cl a := (hcl n).trans ((A n).flow.lift (hp n).1 hge (ha.trans hp0.2).le)
    have k1 := wle (A n) (hp n).1 hge (ha.trans hp0.2) hca
    have k2 := mul_le_mul_of_nonneg_left (Sle (A n) (hp n).1 hge (ha.trans hp0.2) hca) hxn.le
    have k3 := e n
    nlinarith
  · rcases le_or_gt (π / 2) a with h0 | h0
    · exact Eventually.of_forall fun n => lt_of_lt_of_le (hp n).2 h0
    have ha0 : 0 < a := hp0.1.trans ha
    have hca : 0 ≤ S0.cl a := hcl0.trans (A0.flow.lift hp0.1 ha.le h0.le)
    have hlim : x0 * (1 - S0.swirl o B a) - S0.wake o B a < 0 := by
      have k1 := wlt A0 hp0.1 ha h0 hca
      have k2 := mul_le_mul_of_nonneg_left (Sle A0 hp0.1 ha.le h0 hca) hx0.le
      nlinarith
    filter_upwards [(side ⟨ha0, h0⟩).eventually (eventually_lt_nhds hlim), hpos] with n hn hxn
    by_contra hge
    push Not at hge
    have k1 := wle (A n) ha0 hge (hp n).2 (hcl n)
    have k2 := mul_le_mul_of_nonneg_left (Sle (A n) ha0 hge (hp n).2 (hcl n)) hxn.le
    have k3 := e n
    nlinarith

end

/-! ## The station -/

/-- Station `i` is solved with lift, away from the special cases of the induction. -/
structure SolvedWithLift (R : Rotor ℝ) (Uinf Omega pitch az : ℝ) (i : ℕ) (s : Station ℝ) : Prop where
  solved : s.warned = false
  angle : s.phi ∈ Set.Ioo 0 (π / 2)
  lift : 0 ≤ s.loads.cl
  regular : RegularAngle R Uinf Omega pitch az i s.phi

/-- The rotors `R n` tend to `R0` as far as station `i` is concerned: same options and number of blades; the
coefficients converge at angles of attack and Reynolds numbers that converge. -/
structure StationTends {ι : Type*} (l : Filter ι) (R : ι → Rotor ℝ) (R0 : Rotor ℝ) (i : ℕ) : Prop where
  opts : ∀ n, (R n).opts = R0.opts
  B : ∀ n, (R n).B = R0.B
  af : ∀ (u v : ι → ℝ) (p q : ℝ), Tendsto u l (𝓝 p) → Tendsto v l (𝓝 q) →
    Tendsto (fun n => ((R n).af i).evaluate (u n) (v n)) l (𝓝 ((R0.af i).evaluate p q))
  r : Tendsto (fun n => (R n).r i) l (𝓝 (R0.r i))
  chord : Tendsto (fun n => (R n).chord i) l (𝓝 (R0.chord i))
  theta : Tendsto (fun n => (R n).theta i) l (𝓝 (R0.theta i))
  Rhub : Tendsto (fun n => (R n).Rhub) l (𝓝 R0.Rhub)
  Rtip : Tendsto (fun n => (R n).Rtip) l (𝓝 R0.Rtip)
  rho : Tendsto (fun n => (R n).rho) l (𝓝 R0.rho)
  mu : Tendsto (fun n => (R n).mu) l (𝓝 R0.mu)

/-- The section of a station. -/
noncomputable def stationData (R : Rotor ℝ) (Uinf Omega pitch az : ℝ) (i : ℕ) : SectionData :=
  ⟨R.r i, R.chord i, R.Rhub, R.Rtip, fun p => (stationPolar R Uinf Omega pitch az i p).1, fun p => (stationPolar R Uinf Omega pitch az i p).2⟩

section
variable {ι : Type*} {l : Filter ι} {bq : RootFinder ℝ} {R : ι → Rotor ℝ} {R0 : Rotor ℝ} {i : ℕ} {U O pitch az : ι → ℝ} {U0 O0 pitch0 az0 : ℝ}

theorem stationPolar_tendsto (hR : StationTends l R R0 i) (hmu : R0.mu ≠ 0) (hpitch : Tendsto pitch l (𝓝 pitch0))
    (hV : Tendsto (fun n => rotorWind (R n) (U n) (O n) (az n * (π / 180)) i) l (𝓝 (rotorWind R0 U0 O0 (az0 * (π / 180)) i)))
    {u : ι → ℝ} {p : ℝ} (hu : Tendsto u l (𝓝 p)) :
    Tendsto (fun n => stationPolar (R n) (U n) (O n) (pitch n) (az n) i (u n)) l (𝓝 (stationPolar R0 U0 O0 pitch0 az0 i p)) := by
  have tx := (continuous_fst.tendsto _).comp hV
  have ty := (continuous_snd.tendsto _).comp hV
  have ta : Tendsto (fun n => u n - ((R n).theta i + pitch n * (π / 180))) l (𝓝 (p - (R0.theta i + pitch0 * (π / 180)))) :=
    hu.sub (hR.theta.add (hpitch.mul_const _))
  have tre : Tendsto (fun n => stationRe (R n) (U n) (O n) (az n) i) l (𝓝 (stationRe R0 U0 O0 az0 i)) := by
    unfold stationRe
    exact ((hR.rho.mul ((tx.pow 2).add (ty.pow 2)).sqrt).mul hR.chord).div hR.mu hmu
  exact hR.af _ _ _ _ ta tre

/-- **C121** A station in attached flow: if the airfoil, chord, twist, radii, density, viscosity, pitch and the inflow components tend to those of another
call, so do the inflow angle, the coefficients and the loads.  No coefficient need be differentiable. -/
theorem attached_station_limit (hbq : ExactRoots bq) (hR : StationTends l R R0 i) (hmu : R0.mu ≠ 0) (hinv : ∀ n, (R n).inv = none) (hinv0 : R0.inv = none)
    (hre : ∀ n, FixedRe (R n) i) (hre0 : FixedRe R0 i) (hpitch : Tendsto pitch l (𝓝 pitch0)) {R1 : ι → Rotor ℝ} {R2 : Rotor ℝ} {L : ι → LoadsOut ℝ} {L0 : LoadsOut ℝ}
    (h : ∀ n, distributedAeroLoads bq (R n) (U n) (O n) (pitch n) (az n) = (R1 n, .ok (L n)))
    (h0 : distributedAeroLoads bq R0 U0 O0 pitch0 az0 = (R2, .ok L0)) (s : ι → Station ℝ) (s0 : Station ℝ) (hs : ∀ n, (L n).stations[i]? = some (s n))
    (hs0 : L0.stations[i]? = some s0) (hO : ∀ n, O n ≠ 0) (hO0 : O0 ≠ 0) (hatt : ∀ n, AttachedStation (R n) (U n) (O n) (pitch n) (az n) i)
    (hatt0 : AttachedStation R0 U0 O0 pitch0 az0 i) (hsol : ∀ n, SolvedWithLift (R n) (U n) (O n) (pitch n) (az n) i (s n))
    (hsol0 : SolvedWithLift R0 U0 O0 pitch0 az0 i s0)
    (hV : Tendsto (fun n => rotorWind (R n) (U n) (O n) (az n * (π / 180)) i) l (𝓝 (rotorWind R0 U0 O0 (az0 * (π / 180)) i))) :
    Tendsto (fun n => (s n).phi) l (𝓝 s0.phi) ∧ Tendsto (fun n => (s n).loads.cl) l (𝓝 s0.loads.cl) ∧
      Tendsto (fun n => (s n).loads.cd) l (𝓝 s0.loads.cd) ∧ Tendsto (fun n => (s n).loads.Np) l (𝓝 s0.loads.Np) ∧
      Tendsto (fun n => (s n).loads.Tp) l (𝓝 s0.loads.Tp) := by
  have hpi := pi_pos
  have hB := hatt0.blades
  set S : ι → SectionData := fun n => stationData (R n) (U n) (O n) (pitch n) (az n) i with hS
  set S0 : SectionData := stationData R0 U0 O0 pitch0 az0 i with hS0
  have A0 : S0.Attached R0.opts R0.B := ⟨hatt0.hub, hatt0.inner, hatt0.outer, hatt0.chord, hatt0.flow⟩
  have A : ∀ n, (S n).Attached R0.opts R0.B := fun n => by
    have f := (hatt n).flow
    rw [hR.opts n, hR.B n] at f
    exact ⟨(hatt n).hub, (hatt n).inner, (hatt n).outer, (hatt n).chord, f⟩
  have T : SectionTends l S S0 := ⟨hR.r, hR.chord, hR.Rhub, hR.Rtip,
    fun u p hu => (continuous_fst.tendsto _).comp (stationPolar_tendsto hR hmu hpitch hV hu),
    fun u p hu => (continuous_snd.tendsto _).comp (stationPolar_tendsto hR hmu hpitch hV hu)⟩
  have hVx := fun n => (hatt n).front
  have hVy := fun n => (hatt n).sense
  have facts := fun n => station_facts (hinv n) (hre n) (h n) (hO n) (hs n) (Prod.ext rfl rfl) (hVx n).ne' (hVy n).ne'
  have facts0 := station_facts hinv0 hre0 h0 hO0 hs0 (Prod.ext rfl rfl) hatt0.front.ne' hatt0.sense.ne'
  have root : ∀ n, (inductionFactors (S n).r (S n).chord (S n).Rhub (S n).Rtip (s n).phi ((S n).cl (s n).phi) ((S n).cd (s n).phi) R0.B
      (rotorWind (R n) (U n) (O n) (az n * (π / 180)) i).1 (rotorWind (R n) (U n) (O n) (az n * (π / 180)) i).2 R0.opts).fzero = 0 := by
    intro n
    have z := (exact_interval hbq (h n) (hO n) (hs n) (hsol n).solved).1
    rw [stationResidual_const (hinv n) (hre n), hR.opts n, hR.B n] at z
    exact z
  have root0 : (inductionFactors S0.r S0.chord S0.Rhub S0.Rtip s0.phi (S0.cl s0.phi) (S0.cd s0.phi) R0.B
      (rotorWind R0 U0 O0 (az0 * (π / 180)) i).1 (rotorWind R0 U0 O0 (az0 * (π / 180)) i).2 R0.opts).fzero = 0 := by
    have z := (exact_interval hbq h0 hO0 hs0 hsol0.solved).1
    rw [stationResidual_const hinv0 hre0] at z
    exact z
  have reg : ∀ n, RegularK (lossSpec R0.opts R0.B (S n).r (S n).Rhub (S n).Rtip (s n).phi)
      (kSpec R0.opts R0.B (S n).r (S n).chord (S n).Rhub (S n).Rtip (s n).phi ((S n).cl (s n).phi) ((S n).cd (s n).phi)) := by
    intro n
    have := (hsol n).regular
    unfold RegularAngle at this
    rw [hR.opts n, hR.B n] at this
    exact this
  have reg0 : RegularK (lossSpec R0.opts R0.B S0.r S0.Rhub S0.Rtip s0.phi)
      (kSpec R0.opts R0.B S0.r S0.chord S0.Rhub S0.Rtip s0.phi (S0.cl s0.phi) (S0.cd s0.phi)) := hsol0.regular
  have ecl : ∀ n, (s n).loads.cl = (S n).cl (s n).phi := fun n => (facts n).1
  have ecd : ∀ n, (s n).loads.cd = (S n).cd (s n).phi := fun n => (facts n).2.1
  have ecl0 : s0.loads.cl = S0.cl s0.phi := facts0.1
  have ecd0 : s0.loads.cd = S0.cd s0.phi := facts0.2.1
  have lift : ∀ n, 0 ≤ (S n).cl (s n).phi := fun n => ecl n ▸ (hsol n).lift
  have lift0 : 0 ≤ S0.cl s0.phi := ecl0 ▸ hsol0.lift
  have tVx := (continuous_fst.tendsto _).comp hV
  have tVy := (continuous_snd.tendsto _).comp hV
  have tphi : Tendsto (fun n => (s n).phi) l (𝓝 s0.phi) :=
    T.angle hB A A0 (div_pos hatt0.front hatt0.sense) (tVx.div tVy hatt0.sense.ne') (fun n => (hsol n).angle) hsol0.angle lift lift0
      (fun n => section_root hB (A n).hub (A n).inner (A n).outer (hVy n) (hsol n).angle.1 (hsol n).angle.2 (reg n) (root n))
      (section_root hB A0.hub A0.inner A0.outer hatt0.sense hsol0.angle.1 hsol0.angle.2 reg0 root0)
  have tcl : Tendsto (fun n => (s n).loads.cl) l (𝓝 s0.loads.cl) := by
    simp only [ecl, ecl0]
    exact T.cl _ _ tphi
  have tcd : Tendsto (fun n => (s n).loads.cd) l (𝓝 s0.loads.cd) := by
    simp only [ecd, ecd0]
    exact T.cd _ _ tphi
  have tS := T.swirl hB A0 tphi hsol0.angle
  have ts : Tendsto (fun n => sin (s n).phi) l (𝓝 (sin s0.phi)) := (continuous_sin.tendsto _).comp tphi
  have tc : Tendsto (fun n => cos (s n).phi) l (𝓝 (cos s0.phi)) := (continuous_cos.tendsto _).comp tphi
  have cpos : ∀ p ∈ Set.Ioo 0 (π / 2), 0 < cos p := fun p hp => cos_pos_of_mem_Ioo ⟨by linarith [hp.1], hp.2⟩
  have speed : ∀ n, (s n).loads.W ^ 2 =
      ((rotorWind (R n) (U n) (O n) (az n * (π / 180)) i).2 / (1 - (S n).swirl R0.opts R0.B (s n).phi)) ^ 2 / cos (s n).phi ^ 2 := by
    intro n
    obtain ⟨-, k⟩ := section_speed hB (A n).hub (A n).inner (A n).outer (A n).chord (hVx n) (hVy n) (A n).flow (hsol n).angle (root n) (reg n) (lift n)
    have hW := (facts n).2.2.1
    rw [hR.opts n, hR.B n] at hW
    rw [eq_div_iff (pow_pos (cpos _ (hsol n).angle) 2).ne', hW]
    exact k
  obtain ⟨hS1, k0⟩ := section_speed hB A0.hub A0.inner A0.outer A0.chord hatt0.front hatt0.sense A0.flow hsol0.angle root0 reg0 lift0
  have speed0 : s0.loads.W ^ 2 = ((rotorWind R0 U0 O0 (az0 * (π / 180)) i).2 / (1 - S0.swirl R0.opts R0.B s0.phi)) ^ 2 / cos s0.phi ^ 2 := by
    rw [eq_div_iff (pow_pos (cpos _ hsol0.angle) 2).ne', facts0.2.2.1]
    exact k0
  have tW : Tendsto (fun n => (s n).loads.W ^ 2) l (𝓝 (s0.loads.W ^ 2)) := by
    simp only [speed, speed0]
    exact ((tVy.div (tS.const_sub 1) hS1.ne').pow 2).div (tc.pow 2) (pow_pos (cpos _ hsol0.angle) 2).ne'
  have F0 := distributedAeroLoads_forces _ _ _ _ _ _ _ _ h0 i s0 hs0
  have F := fun n => distributedAeroLoads_forces _ _ _ _ _ _ _ _ (h n) i (s n) (hs n)
  have tq : Tendsto (fun n => (s n).loads.q) l (𝓝 s0.loads.q) := by
    simp only [F0.1, fun n => (F n).1]
    exact (hR.rho.mul tW).div_const 2
  refine ⟨tphi, tcl, tcd, ?_, ?_⟩
  · simp only [F0.2.1, fun n => (F n).2.1]
    exact (tq.mul hR.chord).mul ((tcl.mul tc).add (tcd.mul ts))
  · simp only [F0.2.2.1, fun n => (F n).2.2.1]
    exact (tq.mul hR.chord).mul ((tcl.mul ts).sub (tcd.mul tc))

end

/-! ## The rotor -/

/-- The rotors `R n` tend to `R0`: the shape of the blades, options and numbers of blades and sectors are the same; the airfoils, chord, twist, density,
viscosity, hub height, shear exponent, yaw and tilt converge. -/
structure RotorTends {ι : Type*} (l : Filter ι) (R : ι → Rotor ℝ) (R0 : Rotor ℝ) : Prop where
  opts : ∀ n, (R n).opts = R0.opts
  B : ∀ n, (R n).B = R0.B
  nSector : ∀ n, (R n).nSector = R0.nSector
  n : ∀ n, (R n).n = R0.n
  r : ∀ n, (R n).r = R0.r
  precurve : ∀ n, (R n).precurve = R0.precurve
  presweep : ∀ n, (R n).presweep = R0.presweep
  precone : ∀ n, (R n).precone = R0.precone
  Rhub : ∀ n, (R n).Rhub = R0.Rhub
  Rtip : ∀ n, (R n).Rtip = R0.Rtip
  precurveTip : ∀ n, (R n).precurveTip = R0.precurveTip
  presweepTip : ∀ n, (R n).presweepTip = R0.presweepTip
  af : ∀ i < R0.n, ∀ (u v : ι → ℝ) (p q : ℝ), Tendsto u l (𝓝 p) → Tendsto v l (𝓝 q) →
    Tendsto (fun n => ((R n).af i).evaluate (u n) (v n)) l (𝓝 ((R0.af i).evaluate p q))
  chord : ∀ i < R0.n, Tendsto (fun n => (R n).chord i) l (𝓝 (R0.chord i))
  theta : ∀ i < R0.n, Tendsto (fun n => (R n).theta i) l (𝓝 (R0.theta i))
  rho : Tendsto (fun n => (R n).rho) l (𝓝 R0.rho)
  mu : Tendsto (fun n => (R n).mu) l (𝓝 R0.mu)
  hubHt : Tendsto (fun n => (R n).hubHt) l (𝓝 R0.hubHt)
  shearExp : Tendsto (fun n => (R n).shearExp) l (𝓝 R0.shearExp)
  yaw : Tendsto (fun n => (R n).yaw) l (𝓝 R0.yaw)
  tilt : Tendsto (fun n => (R n).tilt) l (𝓝 R0.tilt)

/-- Every station is in attached flow and solved with lift in every sector. -/
structure AttachedOperation (bq : RootFinder ℝ) (R : Rotor ℝ) (c : Cond ℝ) : Prop where
  turning : c.Omega ≠ 0
  plain : R.inv = none
  fixedRe : ∀ i < R.n, FixedRe R i
  flow : ∀ k < R.nSector, ∀ L, (distributedAeroLoads bq R c.Uinf c.Omega c.pitch (k * (360 / R.nSector))).2 = .ok L →
    ∀ (i : ℕ) (s : Station ℝ), L.stations[i]? = some s → AttachedStation R c.Uinf c.Omega c.pitch (k * (360 / R.nSector)) i ∧
      SolvedWithLift R c.Uinf c.Omega c.pitch (k * (360 / R.nSector)) i s

/-- The station is above the ground. -/
def AboveGround (R : Rotor ℝ) (az : ℝ) (i : ℕ) : Prop :=
  0 < R.hubHt ∧ 0 < relHeight R.r R.precurve R.presweep ⟨R.precone, R.yaw, R.tilt, az, 0, 0, R.hubHt, R.shearExp⟩ i

section
variable {ι : Type*} {l : Filter ι} {bq : RootFinder ℝ} {R : ι → Rotor ℝ} {R0 : Rotor ℝ}

theorem RotorTends.station (T : RotorTends l R R0) {i : ℕ} (hi : i < R0.n) : StationTends l R R0 i :=
  ⟨T.opts, T.B, T.af i hi, by simp only [T.r]; exact tendsto_const_nhds, T.chord i hi, T.theta i hi,
    by simp only [T.Rhub]; exact tendsto_const_nhds, by simp only [T.Rtip]; exact tendsto_const_nhds, T.rho, T.mu⟩

theorem RotorTends.wind (T : RotorTends l R R0) {U O : ι → ℝ} {U0 O0 az : ℝ} {i : ℕ} (hU : Tendsto U l (𝓝 U0)) (hO : Tendsto O l (𝓝 O0))
    (hz : AboveGround R0 az i) : Tendsto (fun n => rotorWind (R n) (U n) (O n) az i) l (𝓝 (rotorWind R0 U0 O0 az i)) := by
  obtain ⟨hh, hz⟩ := hz
  have e := relHeight_eq R0.r R0.precurve R0.presweep ⟨R0.precone, R0.yaw, R0.tilt, az, 0, 0, R0.hubHt, R0.shearExp⟩ i
  rw [← e] at hz
  have tsy : Tendsto (fun n => sin (R n).yaw) l (𝓝 (sin R0.yaw)) := (continuous_sin.tendsto _).comp T.yaw
  have tcy : Tendsto (fun n => cos (R n).yaw) l (𝓝 (cos R0.yaw)) := (continuous_cos.tendsto _).comp T.yaw
  have tst : Tendsto (fun n => sin (R n).tilt) l (𝓝 (sin R0.tilt)) := (continuous_sin.tendsto _).comp T.tilt
  have tct : Tendsto (fun n => cos (R n).tilt) l (𝓝 (cos R0.tilt)) := (continuous_cos.tendsto _).comp T.tilt
  have tOm : Tendsto (fun n => O n * π / 30) l (𝓝 (O0 * π / 30)) := (hO.mul_const _).div_const _
  simp only [rotorWind, windComponents, T.n, T.r, T.precurve, T.presweep, T.precone]
  set c := defineCurvature R0.n R0.r R0.precurve R0.presweep R0.precone with hc
  simp only [num_real]
  have th : Tendsto (fun n => heightFromHub (c.x_az i) (c.y_az i) (c.z_az i) (R n).tilt az) l
      (𝓝 (heightFromHub (c.x_az i) (c.y_az i) (c.z_az i) R0.tilt az)) := by
    simp only [heightFromHub, num_real]
    exact (tct.const_mul _).sub (tst.const_mul _)
  have tV : Tendsto (fun n => shearedWind (U n) (heightFromHub (c.x_az i) (c.y_az i) (c.z_az i) (R n).tilt az) (R n).hubHt (R n).shearExp) l
      (𝓝 (shearedWind U0 (heightFromHub (c.x_az i) (c.y_az i) (c.z_az i) R0.tilt az) R0.hubHt R0.shearExp)) := by
    simp only [shearedWind, num_real]
    exact hU.mul (((th.div T.hubHt hh.ne').const_add 1).rpow T.shearExp (.inl hz.ne'))
  refine Tendsto.prodMk_nhds ?_ ?_
  · exact (tV.mul (((((tcy.mul tst).mul_const _).add (tsy.mul_const _)).mul_const _).add ((tcy.mul tct).mul_const _))).add
      ((tOm.neg.mul_const _).mul_const _)
  · exact (tV.mul (((tcy.mul tst).mul_const _).sub (tsy.mul_const _))).add (tOm.mul_const _)

/-- **C121** In attached flow thrust, side forces, torque, hub moments, blade root moment and power of the rotor vary continuously with chord, twist
and airfoils, density and viscosity, hub height, shear, yaw and tilt, wind speed, rotor speed and pitch; airfoils need continuous coefficients only. -/
theorem attached_rotor_limit (hbq : ExactRoots bq) (T : RotorTends l R R0) (hmu : R0.mu ≠ 0)
    (hz : ∀ k < R0.nSector, ∀ i < R0.n, AboveGround R0 (k * (360 / R0.nSector) * (π / 180)) i) {c : ι → Cond ℝ} {c0 : Cond ℝ}
    (hU : Tendsto (fun n => (c n).Uinf) l (𝓝 c0.Uinf)) (hO : Tendsto (fun n => (c n).Omega) l (𝓝 c0.Omega))
    (hp : Tendsto (fun n => (c n).pitch) l (𝓝 c0.pitch)) (A : ∀ n, AttachedOperation bq (R n) (c n)) (A0 : AttachedOperation bq R0 c0)
    {cs : ι → List (Cond ℝ)} {co : ι → Bool} {o : ι → EvalOut ℝ} {m : ι → ℕ} {x : ι → CondOut ℝ} {cs0 : List (Cond ℝ)} {co0 : Bool} {o0 : EvalOut ℝ}
    {m0 : ℕ} {x0 : CondOut ℝ} (h : ∀ n, (evaluate bq (R n) (cs n) (co n)).2 = .ok (o n)) (hc : ∀ n, (cs n)[m n]? = some (c n))
    (hx : ∀ n, (o n).conds[m n]? = some (x n)) (h0 : (evaluate bq R0 cs0 co0).2 = .ok o0) (hc0 : cs0[m0]? = some c0) (hx0 : o0.conds[m0]? = some x0) :
    Tendsto (fun n => (x n).acc.T.val) l (𝓝 x0.acc.T.val) ∧ Tendsto (fun n => (x n).acc.Y.val) l (𝓝 x0.acc.Y.val) ∧
      Tendsto (fun n => (x n).acc.Z.val) l (𝓝 x0.acc.Z.val) ∧ Tendsto (fun n => (x n).acc.Q.val) l (𝓝 x0.acc.Q.val) ∧
      Tendsto (fun n => (x n).acc.My.val) l (𝓝 x0.acc.My.val) ∧ Tendsto (fun n => (x n).acc.Mz.val) l (𝓝 x0.acc.Mz.val) ∧
      Tendsto (fun n => (x n).acc.Mb.val) l (𝓝 x0.acc.Mb.val) ∧ Tendsto (fun n => (x n).P.val) l (𝓝 x0.P.val) := by
  choose L hL hE using fun n => sector_averages (h n) (hc n) (hx n)
  obtain ⟨L0, hL0, eT0, eQ0, eM0, eY0, eZ0, eMy0, eMz0, -⟩ := sector_averages h0 hc0 hx0
  have eT := fun n => (hE n).1
  have eQ := fun n => (hE n).2.1
  have eM := fun n => (hE n).2.2.1
  have eY := fun n => (hE n).2.2.2.1
  have eZ := fun n => (hE n).2.2.2.2.1
  have eMy := fun n => (hE n).2.2.2.2.2.1
  have eMz := fun n => (hE n).2.2.2.2.2.2.1
  have hI : ∀ n k, bladeInt (R n) (L n k) = bladeInt R0 (L n k) := fun n k => by
    simp only [bladeInt, T.n, T.r, T.precurve, T.presweep, T.precone, T.Rhub, T.Rtip, T.precurveTip, T.presweepTip]
  simp only [T.nSector, T.B, hI] at hL eT eQ eM eY eZ eMy eMz
  have key : ∀ k < R0.nSector, ∀ i < R0.n,
      Tendsto (fun n => stationArr (L n k).stations SecLoads.Np i) l (𝓝 (stationArr (L0 k).stations SecLoads.Np i)) ∧
      Tendsto (fun n => stationArr (L n k).stations SecLoads.Tp i) l (𝓝 (stationArr (L0 k).stations SecLoads.Tp i)) := by
    intro k hk i hi
    have d := fun n => (Prod.ext rfl (hL n k hk) : distributedAeroLoads bq (R n) (c n).Uinf (c n).Omega (c n).pitch (k * (360 / R0.nSector))
      = (_, .ok (L n k)))
    have d0 := (Prod.ext rfl (hL0 k hk) : distributedAeroLoads bq R0 c0.Uinf c0.Omega c0.pitch (k * (360 / R0.nSector)) = (_, .ok (L0 k)))
    have len := fun n => (solveStations_ok (distributedAeroLoads_stations (d n))).1
    have len0 := (solveStations_ok (distributedAeroLoads_stations d0)).1
    have hs : ∀ n, (L n k).stations[i]? = some ((L n k).stations[i]'(by rw [len n, T.n]; exact hi)) := fun n => List.getElem?_eq_getElem _
    have hs0 : (L0 k).stations[i]? = some ((L0 k).stations[i]'(by rw [len0]; exact hi)) := List.getElem?_eq_getElem _
    have fl := fun n => (A n).flow k (by rw [T.nSector n]; exact hk) (L n k) (by rw [T.nSector n]; exact hL n k hk) i _ (hs n)
    simp only [T.nSector] at fl
    have fl0 := A0.flow k hk (L0 k) (hL0 k hk) i _ hs0
    have t := attached_station_limit hbq (T.station hi) hmu (fun n => (A n).plain) A0.plain (fun n => (A n).fixedRe i (by rw [T.n n]; exact hi))
      (A0.fixedRe i hi) hp d d0 _ _ hs hs0 (fun n => (A n).turning) A0.turning (fun n => (fl n).1) fl0.1 (fun n => (fl n).2) fl0.2
      (T.wind hU hO (hz k hk i hi))
    simp only [stationArr, hs, hs0, Option.map_some, Option.getD_some]
    exact ⟨t.2.2.2.1, t.2.2.2.2⟩
  have b := fun k (hk : k < R0.nSector) => bladeInt_tendsto (R := R0) (L := fun n => L n k) (L0 := L0 k) (fun i hi => (key k hk i hi).1)
    (fun i hi => (key k hk i hi).2)
  have mean : ∀ {f : ι → ℕ → ℝ} {f0 : ℕ → ℝ}, (∀ k < R0.nSector, Tendsto (fun n => f n k) l (𝓝 (f0 k))) →
      Tendsto (fun n => (∑ k ∈ Finset.range R0.nSector, f n k) / R0.nSector) l (𝓝 ((∑ k ∈ Finset.range R0.nSector, f0 k) / R0.nSector)) :=
    fun hf => (tendsto_finsetSum _ fun k hk => hf k (Finset.mem_range.mp hk)).div_const _
  have tQ : Tendsto (fun n => (x n).acc.Q.val) l (𝓝 x0.acc.Q.val) := by
    simp only [eQ, eQ0]
    exact (mean fun k hk => (b k hk).2.2.2.1).const_mul _
  refine ⟨?_, ?_, ?_, tQ, ?_, ?_, ?_, ?_⟩
  · simp only [eT, eT0]
    exact (mean fun k hk => (b k hk).1).const_mul _
  · simp only [eY, eY0]
    exact (mean fun k hk => ((b k hk).2.1.const_mul _).sub ((b k hk).2.2.1.const_mul _)).const_mul _
  · simp only [eZ, eZ0]
    exact (mean fun k hk => ((b k hk).2.1.const_mul _).add ((b k hk).2.2.1.const_mul _)).const_mul _
  · simp only [eMy, eMy0]
    exact (mean fun k hk => (b k hk).2.2.2.2.const_mul _).const_mul _
  · simp only [eMz, eMz0]
    exact (mean fun k hk => (b k hk).2.2.2.2.const_mul _).const_mul _
  · simp only [eM, eM0]
    exact mean fun k hk => (b k hk).2.2.2.2
  · have eP : ∀ n, (x n).P = power (x n).acc.Q (c n).Omega := fun n => (evaluate_entry (h n) (hc n) (hx n)).2.1
    have eP0 := (evaluate_entry h0 hc0 hx0).2.1
    simp only [eP, eP0, power, num_real]
    exact ((tQ.mul hO).mul_const _).div_const _

end

/-! ## An example -/

theorem risingRotor_attached {U : ℝ} (hU : 1 ≤ U) : AttachedOperation someRoot risingRotor ⟨U, 30 / π, 0⟩ := by
  have hpi := pi_gt_three
  have hO : 30 / π ≠ 0 := by positivity
  refine ⟨hO, rfl, fun _ _ => .inr fun _ _ _ => rfl, fun k _ L hL i s hs => ?_⟩
  have e : distributedAeroLoads someRoot risingRotor U (30 / π) 0 (k * (360 / risingRotor.nSector)) = (_, .ok L) := Prod.ext rfl hL
  obtain ⟨w, hphi⟩ := risingRotor_station hU e hs
  have hi := (loads_station e hs).1
  have hV := risingRotor_straight.wind U (30 / π) (k * (360 / risingRotor.nSector) * (π / 180)) hi
  have hc := risingRotor_straight.cos_pos
  have hri : 0 < risingRotor.r i := risingRotor_straight.hub.trans (risingRotor_straight.range hi).1
  obtain ⟨f1, -⟩ := station_facts (R := risingRotor) rfl (.inr fun _ _ _ => rfl) e hO hs hV (by positivity) (by positivity)
  have hpol : ∀ p, stationPolar risingRotor U (30 / π) 0 (k * (360 / risingRotor.nSector)) i p = (sin p ^ 2, 0) := fun p => by
    simp [stationPolar, risingRotor, annulusRotor]
  have hsin : ∀ {p q : ℝ}, 0 < p → p ≤ q → q ≤ π / 2 → sin p ^ 2 ≤ sin q ^ 2 := fun h0 h1 h2 =>
    pow_le_pow_left₀ (sin_nonneg_of_nonneg_of_le_pi h0.le (by linarith)) (sin_le_sin_of_le_of_le_pi_div_two (by linarith) h2 h1) 2
  refine ⟨⟨by simp [risingRotor, annulusRotor, demoRotor], risingRotor_straight.hub, (risingRotor_straight.range hi).1, (risingRotor_straight.range hi).2,
    by simp only [risingRotor, annulusRotor]; positivity, by rw [hV]; positivity, by rw [hV]; positivity, ?_⟩, w, hphi, ?_, ?_⟩
  · exact attachedFlow_of_constant_drag (by simp [risingRotor, annulusRotor, demoRotor]) risingRotor_straight.hub
      (risingRotor_straight.range hi).1 (risingRotor_straight.range hi).2 (fun h0 h1 h2 => by simp only [hpol]; exact hsin h0 h1 h2)
      fun _ => ⟨0, le_rfl, fun _ _ _ => by simp only [hpol]⟩
  · rw [f1, hpol]
    positivity
  · have hcp : 0 ≤ cos s.phi := cos_nonneg_of_mem_Icc ⟨by linarith [hphi.1], hphi.2.le⟩
    unfold RegularAngle
    rw [hpol]
    have hF : lossSpec risingRotor.opts risingRotor.B (risingRotor.r i) risingRotor.Rhub risingRotor.Rtip s.phi = 1 := by
      simp [lossSpec, risingRotor, annulusRotor]
    rw [hF]
    refine regularK_lossless (lt_of_lt_of_le (by norm_num) (show 0 ≤ _ from ?_))
    unfold kSpec cnSpec
    rw [hF]
    simp only [risingRotor, annulusRotor, demoRotor, if_true, zero_mul, add_zero]
    positivity

/-- The hypotheses of `attached_rotor_limit` are met: the thrust and the power of `risingRotor` are continuous functions of the wind speed. Compare
`thrust_continuous_false`. -/
example : ∃ T P : ℝ → ℝ, ContinuousOn T (Set.Ici 1) ∧ ContinuousOn P (Set.Ici 1) ∧
    ∀ U, ∃ o x, (evaluate someRoot risingRotor [⟨U, 30 / π, 0⟩] false).2 = .ok o ∧ o.conds = [x] ∧ x.acc.T.val = T U ∧ x.P.val = P U := by
  have hpi := pi_gt_three
  have hO : 30 / π ≠ 0 := by positivity
  have tot : ∀ U : ℝ, ∃ o x, (evaluate someRoot risingRotor [⟨U, 30 / π, 0⟩] false).2 = .ok o ∧ o.conds = [x] := fun U => by
    obtain ⟨o, x, h1, h2, -⟩ := evaluate_total someRoot_onlyValueError risingRotor ⟨U, 30 / π, 0⟩ false (by simp [risingRotor, annulusRotor, demoRotor]) rfl
      hO (by simp [risingRotor, annulusRotor, demoRotor])
    exact ⟨o, x, h1, h2⟩
  choose o x ho hx using tot
  have key : ∀ U0 : Set.Ici (1 : ℝ), _ := fun U0 => attached_rotor_limit (l := 𝓝 U0) (R := fun _ : Set.Ici (1 : ℝ) => risingRotor) (R0 := risingRotor)
    someRoot_exact ⟨fun _ => rfl, fun _ => rfl, fun _ => rfl, fun _ => rfl, fun _ => rfl, fun _ => rfl, fun _ => rfl, fun _ => rfl, fun _ => rfl,
      fun _ => rfl, fun _ => rfl, fun _ => rfl, fun i _ u v p q hu hv => by simp only [risingRotor, annulusRotor]; exact ((((continuous_sin.tendsto _).comp hu).pow 2).prodMk_nhds tendsto_const_nhds), fun _ _ => tendsto_const_nhds, fun _ _ => tendsto_const_nhds, tendsto_const_nhds,
      tendsto_const_nhds, tendsto_const_nhds, tendsto_const_nhds, tendsto_const_nhds, tendsto_const_nhds⟩
    (by norm_num [risingRotor, annulusRotor, demoRotor])
    (fun k _ i hi => by
      have h1 : (i : ℝ) ≤ 1 := by
        have : i < 2 := hi
        exact_mod_cast Nat.lt_succ_iff.mp this
      have h0 : (0 : ℝ) ≤ i := by positivity
      set z := (k : ℝ) * (360 / risingRotor.nSector) * (π / 180)
      have c2 := neg_one_le_cos z
      have c1 := cos_le_one z
      refine ⟨by norm_num [risingRotor, annulusRotor, demoRotor], ?_⟩
      simp only [relHeight, risingRotor, annulusRotor, demoRotor, cos_zero, sin_zero]
      rw [show 1 + ((0 * sin z + ((6 + (i : ℝ)) * 1 + 0 * 0) * cos z) * 1 - (0 * 1 - (6 + (i : ℝ)) * 0) * 0) / 90
        = (90 + (6 + (i : ℝ)) * cos z) / 90 by ring]
      refine div_pos ?_ (by norm_num)
      nlinarith)
    (c := fun U => ⟨U, 30 / π, 0⟩) (c0 := ⟨U0, 30 / π, 0⟩) continuous_subtype_val.continuousAt tendsto_const_nhds tendsto_const_nhds
    (fun U => risingRotor_attached U.2) (risingRotor_attached U0.2) (fun U => ho U) (m := fun _ => 0) (fun _ => rfl) (x := fun U => x U)
    (fun U => by rw [hx U]; rfl) (ho U0) (m0 := 0) rfl (x0 := x U0) (by rw [hx U0]; rfl)
  refine ⟨fun U => (x U).acc.T.val, fun U => (x U).P.val, ?_, ?_, fun U => ⟨o U, x U, ho U, hx U, rfl, rfl⟩⟩
  · rw [continuousOn_iff_continuous_domRestrict, continuous_iff_continuousAt]
    exact fun U0 => (key U0).1
  · rw [continuousOn_iff_continuous_domRestrict, continuous_iff_continuousAt]
    exact fun U0 => (key U0).2.2.2.2.2.2.2

end Verif
