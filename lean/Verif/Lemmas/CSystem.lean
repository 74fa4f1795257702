import Verif.Model.CSystem
import Mathlib.Analysis.Calculus.Deriv.Add
import Mathlib.Analysis.Calculus.Deriv.Mul
import Mathlib.Analysis.SpecialFunctions.Trigonometric.Deriv

/-! # Auxiliary lemmas on the derivative dictionaries of `DirectionVector` -/

namespace Verif
variable {κ β : Type} [DecidableEq κ]

namespace Dict

theorem get?_set (d : Dict κ β) (k k' : κ) (v : β) :
    get? (set d k v) k' = if k = k' then some v else get? d k' := by
  induction d with
  | nil => simp only [set, get?]
  | cons e d ih =>
    obtain ⟨k0, v0⟩ := e
    simp only [set, get?]
    by_cases h0 : k0 = k
    · subst h0
      simp only [if_true, get?]
      by_cases h : k0 = k' <;> simp [h]
    · simp only [if_neg h0, get?, ih]
      by_cases h : k = k'
      · subst h
        simp [h0]
      · simp [h]

theorem get?_map (d : Dict κ β) (f : β → β) (k : κ) :
    get? (d.map (fun e => (e.1, f e.2))) k = (get? d k).map f := by
  induction d with
  | nil => rfl
  | cons e d ih =>
    simp only [List.map_cons, get?, ih]
    split_ifs <;> rfl

theorem get?_filter (d : Dict κ β) (p : κ → Prop) [DecidablePred p] (k : κ) :
    get? (d.filter (fun e => p e.1)) k = if p k then get? d k else none := by
  induction d with
  | nil => simp [get?]
  | cons e d ih =>
    simp only [List.filter_cons]
    by_cases he : p e.1
    · simp only [he, decide_true, if_true, get?, ih]
      by_cases h : e.1 = k
      · subst h; simp [he]
      · simp [h]
    · simp only [he, decide_false, Bool.false_eq_true, if_false, get?, ih]
      by_cases h : e.1 = k
      · subst h; simp [he]
      · simp [h]

theorem get?_eq_none {d : Dict κ β} {k : κ} : get? d k = none ↔ k ∉ keys d := by
  induction d with
  | nil => simp [get?, keys]
  | cons e d ih =>
    simp only [get?, keys, List.map_cons, List.mem_cons, not_or]
    by_cases h : e.1 = k
    · simp [h]
    · simp only [h, if_false, ih, keys]
      exact ⟨fun h' => ⟨fun h2 => h h2.symm, h'⟩, fun h' => h'.2⟩

theorem keys_set (d : Dict κ β) (k : κ) (v : β) :
    keys (set d k v) = if k ∈ keys d then keys d else keys d ++ [k] := by
  induction d with
  | nil => rfl
  | cons e d ih =>
    simp only [set]
    by_cases h : e.1 = k
    · simp [h, keys]
    · have h' : k ≠ e.1 := fun h2 => h h2.symm
      simp only [h, if_false]
      simp only [keys, List.map_cons, List.mem_cons, h', false_or] at *
      rw [ih]
      split_ifs with h2 <;> simp [h2]

theorem nodup_set {d : Dict κ β} (h : (keys d).Nodup) (k : κ) (v : β) : (keys (set d k v)).Nodup := by
  rw [keys_set]
  split_ifs with hk
  · exact h
  · rw [List.nodup_append]
    refine ⟨h, by simp, ?_⟩
    intro a ha b hb
    simp only [List.mem_singleton] at hb
    subst hb
    exact fun hab => hk (hab ▸ ha)

/-- The loop `for k in keys: acc[k] = f(d[k])`. -/
theorem get?_foldl_set (d acc : Dict κ β) (f : β → β) (hd : (keys d).Nodup) (k : κ) :
    get? (d.foldl (fun acc e => set acc e.1 (f e.2)) acc) k
      = match get? d k with | some v => some (f v) | none => get? acc k := by
  induction d generalizing acc with
  | nil => rfl
  | cons e d ih =>
    simp only [keys, List.map_cons, List.nodup_cons] at hd
    simp only [List.foldl_cons]
    rw [ih _ hd.2]
    simp only [get?]
    by_cases h : e.1 = k
    · subst h
      have : get? d e.1 = none := get?_eq_none.mpr hd.1
      simp [this, get?_set]
    · simp only [h, if_false, get?_set]

theorem nodup_foldl_set (d acc : Dict κ β) (f : β → β) (h : (keys acc).Nodup) :
    (keys (d.foldl (fun acc e => set acc e.1 (f e.2)) acc)).Nodup := by
  induction d generalizing acc with
  | nil => exact h
  | cons e d ih => exact ih _ (nodup_set h _ _)

omit [DecidableEq κ] in
theorem nodup_filter {d : Dict κ β} (h : (keys d).Nodup) (p : κ × β → Bool) : (keys (d.filter p)).Nodup := by
  unfold keys at *
  exact h.sublist (List.Sublist.map _ List.filter_sublist)

omit [DecidableEq κ] in
theorem keys_map (d : Dict κ β) (f : β → β) : keys (d.map (fun e => (e.1, f e.2))) = keys d := by
  simp [keys, Function.comp_def]

end Dict

section
variable {α : Type} [Num α]

omit [Num α] in
theorem permD_get? (f : Triple α → Triple α) (d : Dict DKey (Triple α)) (k : DKey) :
    (permD f d).get? k = (d.get? k).map f := Dict.get?_map d f k

omit [Num α] in
theorem permD_keys (f : Triple α → Triple α) (d : Dict DKey (Triple α)) : (permD f d).keys = d.keys :=
  Dict.keys_map d f

/-- What the dictionaries contain after one rotation. -/
theorem rotateAboutZ_get? (x y z : α) (d : Dict DKey (Triple α)) (hd : d.keys.Nodup) (theta : α) (name : Angle)
    (r : Bool) (k : DKey) :
    let thetaM : α := if r then -1 else 1
    let th := deg2rad (theta * thetaM)
    let c := Num.cos th
    let s := Num.sin th
    (rotateAboutZ x y z d theta name r).d.get? k =
      match d.get? k with
      | some t => some (rotEntry c s t)
      | none => if k = .ang name then
          some ⟨(-x * s + y * c) * deg2rad thetaM, (-x * c - y * s) * deg2rad thetaM, 0⟩ else none := by
  intro thetaM th c s
  simp only [rotateAboutZ]
  rw [Dict.get?_foldl_set _ _ _ (Dict.nodup_filter hd _)]
  have e1 := Dict.get?_filter d (fun k => ¬(k = .dx ∨ k = .dy ∨ k = .dz)) k
  have e2 := Dict.get?_filter d (fun k => k = .dx ∨ k = .dy ∨ k = .dz) k
  rw [e1, Dict.get?_set, Dict.get?_map, e2]
  by_cases hk : k = .dx ∨ k = .dy ∨ k = .dz
  · have hka : ¬ (DKey.ang name = k) := by rintro rfl; simp at hk
    have hka' : ¬ (k = DKey.ang name) := fun h => hka h.symm
    simp only [hk, not_true, if_false, hka, if_true, hka']
    cases d.get? k <;> rfl
  · simp only [hk, not_false_eq_true, if_true, if_false]
    cases d.get? k with
    | some t => rfl
    | none =>
      simp only [Option.map_none]
      by_cases h : k = .ang name
      · subst h; rfl
      · have h' : ¬ (DKey.ang name = k) := fun e => h e.symm
        simp only [h, h', if_false]

theorem rotateAboutZ_nodup (x y z : α) (d : Dict DKey (Triple α)) (hd : d.keys.Nodup) (theta : α) (name : Angle)
    (r : Bool) : (rotateAboutZ x y z d theta name r).d.keys.Nodup := by
  simp only [rotateAboutZ]
  refine Dict.nodup_foldl_set _ _ _ (Dict.nodup_set ?_ _ _)
  rw [Dict.keys_map]
  exact Dict.nodup_filter hd _

theorem Conv.call_nodup (c : Conv) (v : DirVec α) (t : α) (hd : v.d.keys.Nodup) : (c.call v t).d.keys.Nodup := by
  cases c <;>
    simp only [Conv.call, DirVec.windToInertial, DirVec.inertialToWind,
      DirVec.yawToWind, DirVec.windToYaw, DirVec.hubToYaw, DirVec.yawToHub, DirVec.hubToAzimuth, DirVec.azimuthToHub,
      DirVec.azimuthToBlade, DirVec.bladeToAzimuth, DirVec.airfoilToBlade, DirVec.bladeToAirfoil,
      DirVec.airfoilToProfile, DirVec.profileToAirfoil, rotXY, rotZX, rotYZ, permD_keys] <;>
    first
      | exact hd
      | (apply rotateAboutZ_nodup; simpa only [permD_keys] using hd)

end

/-- The linear action of a conversion on a component triple. -/
noncomputable def Conv.lin (c : Conv) (t : ℝ) (T : Triple ℝ) : Triple ℝ :=
  let r := c.call ⟨T.x, T.y, T.z, []⟩ t
  ⟨r.x, r.y, r.z⟩

/-- Derivative of the result of a conversion with respect to its angle. -/
noncomputable def Conv.dang (c : Conv) (v : DirVec ℝ) (t : ℝ) : Triple ℝ :=
  match c.name with
  | none => ⟨0, 0, 0⟩
  | some a => (((c.call { v with d := [] } t).d.get? (.ang a))).getD ⟨0, 0, 0⟩

macro "cunf" : tactic => `(tactic|
  simp only [Conv.call, Conv.lin, Conv.name, Conv.dang, DirVec.windToInertial, DirVec.inertialToWind,
    DirVec.yawToWind, DirVec.windToYaw, DirVec.hubToYaw, DirVec.yawToHub, DirVec.hubToAzimuth, DirVec.azimuthToHub,
    DirVec.azimuthToBlade, DirVec.bladeToAzimuth, DirVec.airfoilToBlade, DirVec.bladeToAirfoil,
    DirVec.airfoilToProfile, DirVec.profileToAirfoil, rotXY, rotZX, rotYZ])

theorem Conv.call_get?_some (c : Conv) (v : DirVec ℝ) (t : ℝ) (hd : v.d.keys.Nodup) (k : DKey) (T : Triple ℝ)
    (h : v.d.get? k = some T) : (c.call v t).d.get? k = some (c.lin t T) := by
  cases c <;> cunf
  all_goals
    first
      | (rw [rotateAboutZ_get? _ _ _ _ hd]; simp only [h]; rfl)
      | (rw [permD_get?, h]; rfl)
      | (rw [permD_get?, rotateAboutZ_get? _ _ _ _ (by rw [permD_keys]; exact hd), permD_get?, h]; rfl)

theorem Conv.call_get?_new (c : Conv) (v : DirVec ℝ) (t : ℝ) (hd : v.d.keys.Nodup) (a : Angle)
    (ha : c.name = some a) (h : v.d.get? (.ang a) = none) :
    (c.call v t).d.get? (.ang a) = some (c.dang v t) := by
  cases c <;> simp only [Conv.name, Option.some.injEq, reduceCtorEq] at ha <;> subst ha <;> cunf
  all_goals
    first
      | (rw [rotateAboutZ_get? _ _ _ _ hd, rotateAboutZ_get? _ _ _ _ (by simp [Dict.keys])]; simp only [h]; rfl)
      | (rw [permD_get?, permD_get?, rotateAboutZ_get? _ _ _ _ (by rw [permD_keys]; exact hd), permD_get?, h,
          rotateAboutZ_get? _ _ _ _ (by simp [permD, Dict.keys])]; rfl)

theorem Conv.call_get?_none (c : Conv) (v : DirVec ℝ) (t : ℝ) (hd : v.d.keys.Nodup) (k : DKey)
    (ha : ∀ a, c.name = some a → k ≠ .ang a) (h : v.d.get? k = none) :
    (c.call v t).d.get? k = none := by
  cases c <;> simp only [Conv.name, Option.some.injEq, forall_eq', reduceCtorEq, false_imp_iff, imp_true_iff] at ha <;> cunf
  all_goals
    first
      | (rw [rotateAboutZ_get? _ _ _ _ hd]; simp only [h, ha, if_false])
      | (rw [permD_get?, h]; rfl)
      | (rw [permD_get?, rotateAboutZ_get? _ _ _ _ (by rw [permD_keys]; exact hd), permD_get?, h]; simp [ha])

/-- The components of a family of vectors have the derivative `T` at `t`. -/
def HasDerivV (F : ℝ → DirVec ℝ) (T : Triple ℝ) (t : ℝ) : Prop :=
  HasDerivAt (fun s => (F s).x) T.x t ∧ HasDerivAt (fun s => (F s).y) T.y t ∧ HasDerivAt (fun s => (F s).z) T.z t

theorem Conv.hasDerivV_lin (c : Conv) (F : ℝ → DirVec ℝ) (T : Triple ℝ) (t th : ℝ) (h : HasDerivV F T t) :
    HasDerivV (fun s => c.call (F s) th) (c.lin th T) t := by
  obtain ⟨h1, h2, h3⟩ := h
  have key : ∀ (f g : ℝ → ℝ) (f' g' a b : ℝ), HasDerivAt f f' t → HasDerivAt g g' t →
      HasDerivAt (fun s => f s * a + g s * b) (f' * a + g' * b) t :=
    fun f g f' g' a b hf hg => (hf.mul_const a).add (hg.mul_const b)
  have key2 : ∀ (f g : ℝ → ℝ) (f' g' a b : ℝ), HasDerivAt f f' t → HasDerivAt g g' t →
      HasDerivAt (fun s => -f s * a + g s * b) (-f' * a + g' * b) t :=
    fun f g f' g' a b hf hg => (hf.neg.mul_const a).add (hg.mul_const b)
  refine ⟨?_, ?_, ?_⟩ <;> cases c <;> cunf <;> (try simp only [rotateAboutZ]) <;>
    first
      | assumption
      | (apply key <;> assumption)
      | (apply key2 <;> assumption)

theorem hasDerivAt_scaled (m t : ℝ) : HasDerivAt (fun s : ℝ => s * m * (Real.pi / 180)) (m * (Real.pi / 180)) t := by
  simpa using ((hasDerivAt_id t).mul_const m).mul_const (Real.pi / 180)

/-- The derivative of a rotation with respect to its angle. -/
theorem rotateAboutZ_hasDerivV (x y z : ℝ) (d d' : Dict DKey (Triple ℝ)) (hd : d'.keys.Nodup) (name : Angle)
    (hn : d'.get? (.ang name) = none) (r : Bool) (th : ℝ) :
    ∃ T, (rotateAboutZ x y z d' th name r).d.get? (.ang name) = some T ∧
      HasDerivV (fun s => rotateAboutZ x y z d s name r) T th := by
  refine ⟨_, by rw [rotateAboutZ_get? _ _ _ _ hd, hn]; simp only [if_true]; rfl, ?_⟩
  generalize hm : (if r = true then (-1 : ℝ) else 1) = m
  have h := hasDerivAt_scaled m th
  refine ⟨?_, ?_, ?_⟩ <;> simp only [rotateAboutZ, hm, num_real]
  · exact ((h.cos.const_mul x).add (h.sin.const_mul y)).congr_deriv (by ring)
  · exact ((h.sin.const_mul (-x)).add (h.cos.const_mul y)).congr_deriv (by ring)
  · exact hasDerivAt_const th z

theorem Conv.hasDerivV_ang (c : Conv) (v : DirVec ℝ) (th : ℝ) :
    HasDerivV (fun s => c.call v s) (c.dang v th) th := by
  have base : ∀ (x y z : ℝ) (d : Dict DKey (Triple ℝ)) (name : Angle) (r : Bool), ∃ T,
      (rotateAboutZ x y z [] th name r).d.get? (.ang name) = some T ∧
      HasDerivV (fun s => rotateAboutZ x y z d s name r) T th :=
    fun x y z d name r => rotateAboutZ_hasDerivV x y z d [] (by simp [Dict.keys]) name rfl r th
  cases c <;> cunf
  all_goals
    first
      | (obtain ⟨T, hT, h1, h2, h3⟩ := base v.x v.y v.z v.d _ _; rw [hT]; exact ⟨h1, h2, h3⟩)
      | (obtain ⟨T, hT, h1, h2, h3⟩ := base v.z v.x v.y (permD (fun t => ⟨t.z, t.x, t.y⟩) v.d) _ _
         rw [permD_get?, show permD (fun t : Triple ℝ => (⟨t.z, t.x, t.y⟩ : Triple ℝ)) [] = [] from rfl, hT]
         exact ⟨h2, h3, h1⟩)
      | (obtain ⟨T, hT, h1, h2, h3⟩ := base v.y v.z v.x (permD (fun t => ⟨t.y, t.z, t.x⟩) v.d) _ _
         rw [permD_get?, show permD (fun t : Triple ℝ => (⟨t.y, t.z, t.x⟩ : Triple ℝ)) [] = [] from rfl, hT]
         exact ⟨h3, h1, h2⟩)
      | exact ⟨hasDerivAt_const _ _, hasDerivAt_const _ _, hasDerivAt_const _ _⟩

end Verif
