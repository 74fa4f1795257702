import Verif.Lemmas.CSystem
import Verif.Props.CSystem

/-!
# Derivatives carried by direction vectors (C04), cross-product derivatives (C05), arithmetic (C06)
-/

namespace Verif
open Spec

/-- A chain of conversions applied from left to right. -/
noncomputable def runChain (l : List (Conv × ℝ)) (v : DirVec ℝ) : DirVec ℝ := l.foldl (fun v p => p.1.call v p.2) v

/-- The chain with every angle of the given name replaced by `t`. -/
def setAngle (l : List (Conv × ℝ)) (a : Angle) (t : ℝ) : List (Conv × ℝ) :=
  l.map (fun p => if p.1.name = some a then (p.1, t) else p)

/-- The angle names used by a chain. -/
def chainNames (l : List (Conv × ℝ)) : List Angle := l.filterMap (fun p => p.1.name)

private theorem chain_transport (l : List (Conv × ℝ)) (F : ℝ → DirVec ℝ) (T : Triple ℝ) (t0 : ℝ) (k : DKey)
    (hd : (F t0).d.keys.Nodup) (hk : (F t0).d.get? k = some T) (hF : HasDerivV F T t0) :
    ∃ T', (runChain l (F t0)).d.get? k = some T' ∧ HasDerivV (fun t => runChain l (F t)) T' t0 := by
  induction l generalizing F T with
  | nil => exact ⟨T, hk, hF⟩
  | cons p l ih =>
    exact ih (fun t => p.1.call (F t) p.2) (p.1.lin p.2 T) (Conv.call_nodup _ _ _ hd)
      (Conv.call_get?_some _ _ _ hd _ _ hk) (Conv.hasDerivV_lin _ _ _ _ _ hF)

private theorem runChain_nodup (l : List (Conv × ℝ)) (v : DirVec ℝ) (hd : v.d.keys.Nodup) :
    (runChain l v).d.keys.Nodup := by
  induction l generalizing v with
  | nil => exact hd
  | cons p l ih => exact ih _ (Conv.call_nodup _ _ _ hd)

private theorem runChain_get?_none (l : List (Conv × ℝ)) (v : DirVec ℝ) (hd : v.d.keys.Nodup) (k : DKey)
    (hk : v.d.get? k = none) (hl : ∀ a ∈ chainNames l, k ≠ .ang a) : (runChain l v).d.get? k = none := by
  induction l generalizing v with
  | nil => exact hk
  | cons p l ih =>
    refine ih _ (Conv.call_nodup _ _ _ hd) ?_ ?_
    · refine Conv.call_get?_none _ _ _ hd _ ?_ hk
      intro a ha
      exact hl a (by simp [chainNames, ha])
    · intro a ha
      refine hl a ?_
      simp only [chainNames, List.filterMap_cons] at *
      split
      · exact ha
      · exact List.mem_cons_of_mem _ ha

private theorem setAngle_of_not_mem (l : List (Conv × ℝ)) (a : Angle) (t : ℝ) (h : a ∉ chainNames l) :
    setAngle l a t = l := by
  simp only [setAngle]
  conv_rhs => rw [← List.map_id l]
  refine List.map_congr_left ?_
  intro p hp
  have : p.1.name ≠ some a := fun hn => h (List.mem_filterMap.mpr ⟨p, hp, hn⟩)
  simp [this]

private theorem mk'_nodup (x y z : ℝ) : (DirVec.mk' x y z).d.keys.Nodup := by
  simp [DirVec.mk', Dict.keys]

/-- **C04** After any chain of conversions with pairwise different angle names, the dictionary entry of each angle is
the exact derivative (per degree) of the resulting components with respect to that angle. -/
theorem chain_angle_deriv (l : List (Conv × ℝ)) (hl : (chainNames l).Nodup) (x y z : ℝ)
    (c : Conv) (th : ℝ) (hc : (c, th) ∈ l) (a : Angle) (ha : c.name = some a) :
    ∃ T, (runChain l (DirVec.mk' x y z)).d.get? (.ang a) = some T ∧
      HasDerivV (fun t => runChain (setAngle l a t) (DirVec.mk' x y z)) T th := by
  obtain ⟨l1, l2, rfl⟩ := List.append_of_mem hc
  have hn : chainNames (l1 ++ (c, th) :: l2) = chainNames l1 ++ a :: chainNames l2 := by
    simp [chainNames, ha]
  rw [hn, List.nodup_append] at hl
  obtain ⟨_, h2, h3⟩ := hl
  have ha1 : a ∉ chainNames l1 := fun h => h3 a h a (by simp) rfl
  have ha2 : a ∉ chainNames l2 := (List.nodup_cons.mp h2).1
  have hset : ∀ t, setAngle (l1 ++ (c, th) :: l2) a t = l1 ++ (c, t) :: l2 := by
    intro t
    have e1 := setAngle_of_not_mem l1 a t ha1
    have e2 := setAngle_of_not_mem l2 a t ha2
    simp only [setAngle] at e1 e2 ⊢
    rw [List.map_append, List.map_cons, e1, e2]
    simp [ha]
  have hrun : ∀ t, runChain (l1 ++ (c, t) :: l2) (DirVec.mk' x y z)
      = runChain l2 (c.call (runChain l1 (DirVec.mk' x y z)) t) := by
    intro t
    simp [runChain, List.foldl_append]
  simp only [hset, hrun]
  set w := runChain l1 (DirVec.mk' x y z) with hw
  have hwd : w.d.keys.Nodup := runChain_nodup _ _ (mk'_nodup x y z)
  have hwn : w.d.get? (.ang a) = none := by
    refine runChain_get?_none _ _ (mk'_nodup x y z) _ (by simp [DirVec.mk', Dict.get?]) ?_
    intro b hb h
    simp only [DKey.ang.injEq] at h
    exact ha1 (h ▸ hb)
  exact chain_transport l2 (fun t => c.call w t) _ th (.ang a) (Conv.call_nodup _ _ _ hwd)
    (Conv.call_get?_new _ _ _ hwd _ ha hwn) (Conv.hasDerivV_ang _ _ _)

/-- **C04** The entries `"dx"`, `"dy"`, `"dz"` are the exact derivatives with respect to the starting components, for
every chain. -/
theorem chain_component_deriv (l : List (Conv × ℝ)) (x y z : ℝ) :
    (∃ T, (runChain l (DirVec.mk' x y z)).d.get? .dx = some T ∧
      HasDerivV (fun s => runChain l (DirVec.mk' s y z)) T x) ∧
    (∃ T, (runChain l (DirVec.mk' x y z)).d.get? .dy = some T ∧
      HasDerivV (fun s => runChain l (DirVec.mk' x s z)) T y) ∧
    (∃ T, (runChain l (DirVec.mk' x y z)).d.get? .dz = some T ∧
      HasDerivV (fun s => runChain l (DirVec.mk' x y s)) T z) := by
  refine ⟨?_, ?_, ?_⟩
  · exact chain_transport l (fun s => DirVec.mk' s y z) ⟨1, 0, 0⟩ x _ (mk'_nodup x y z) rfl
      ⟨hasDerivAt_id x, hasDerivAt_const x y, hasDerivAt_const x z⟩
  · exact chain_transport l (fun s => DirVec.mk' x s z) ⟨0, 1, 0⟩ y _ (mk'_nodup x y z) rfl
      ⟨hasDerivAt_const y x, hasDerivAt_id y, hasDerivAt_const y z⟩
  · exact chain_transport l (fun s => DirVec.mk' x y s) ⟨0, 0, 1⟩ z _ (mk'_nodup x y z) rfl
      ⟨hasDerivAt_const z x, hasDerivAt_const z y, hasDerivAt_id z⟩

/-- **C04** No other key is recorded: an angle that no conversion of the chain used has no entry. -/
theorem chain_no_other_key (l : List (Conv × ℝ)) (x y z : ℝ) (a : Angle) (ha : a ∉ chainNames l) :
    (runChain l (DirVec.mk' x y z)).d.get? (.ang a) = none := by
  refine runChain_get?_none _ _ (mk'_nodup x y z) _ (by simp [DirVec.mk', Dict.get?]) ?_
  intro b hb h
  simp only [DKey.ang.injEq] at h
  exact ha (h ▸ hb)

/-- The chain used by the rotor code (yaw, tilt, azimuth, cone, from the wind frame to the blade) meets the hypotheses. -/
example : (chainNames [(.windToYaw, 3), (.yawToHub, 5), (.hubToAzimuth, 120), (.azimuthToBlade, 2)]).Nodup := by
  simp [chainNames, Conv.name]

example : ∃ T, ((((((DirVec.mk' 10 0 0).windToYaw 3).yawToHub 5).hubToAzimuth 120).azimuthToBlade 2).d.get?
      (.ang .tilt)) = some T ∧
    HasDerivV (fun t => (((((DirVec.mk' 10 0 0).windToYaw 3).yawToHub t).hubToAzimuth 120).azimuthToBlade 2)) T 5 :=
  chain_angle_deriv [(.windToYaw, 3), (.yawToHub, 5), (.hubToAzimuth, 120), (.azimuthToBlade, 2)]
    (by simp [chainNames, Conv.name]) 10 0 0 .yawToHub 5 (by simp) .tilt rfl

/-- **C04** (disagreement): the restriction to different names is needed. Yawing by `t` and back by `t` is the identity
for every `t`, so the derivative with respect to the yaw angle is zero, but the recorded entry is not. -/
theorem chain_repeated_angle_wrong :
    let l : ℝ → List (Conv × ℝ) := fun t => [(.windToYaw, t), (.yawToWind, t)]
    HasDerivV (fun t => runChain (l t) (DirVec.mk' 1 0 0)) ⟨0, 0, 0⟩ 0 ∧
    ∃ T, (runChain (l 0) (DirVec.mk' (1:ℝ) 0 0)).d.get? (.ang .yaw) = some T ∧ T.y ≠ 0 := by
  refine ⟨?_, ⟨_, rfl, ?_⟩⟩
  · have h : ∀ t, (runChain [(.windToYaw, t), (.yawToWind, t)] (DirVec.mk' (1:ℝ) 0 0)).vec = ⟨1, 0, 0⟩ := by
      intro t
      exact conv_roundtrip .windToYaw (DirVec.mk' 1 0 0) t
    have hx : ∀ t, (runChain [(.windToYaw, t), (.yawToWind, t)] (DirVec.mk' (1:ℝ) 0 0)).x = 1 :=
      fun t => congrArg V3.x (h t)
    have hy : ∀ t, (runChain [(.windToYaw, t), (.yawToWind, t)] (DirVec.mk' (1:ℝ) 0 0)).y = 0 :=
      fun t => congrArg V3.y (h t)
    have hz : ∀ t, (runChain [(.windToYaw, t), (.yawToWind, t)] (DirVec.mk' (1:ℝ) 0 0)).z = 0 :=
      fun t => congrArg V3.z (h t)
    simp only [HasDerivV, hx, hy, hz]
    exact ⟨hasDerivAt_const _ _, hasDerivAt_const _ _, hasDerivAt_const _ _⟩
  · simp [rotEntry, num_real, DirVec.mk', Real.pi_ne_zero]

/-- The components of the operands of a cross product. -/
inductive CComp
  | ax | ay | az | bx | by' | bz
  deriving DecidableEq

/-- The operands with one component replaced by `s`. -/
def CComp.shift (a b : V3) : CComp → ℝ → V3 × V3
  | .ax, s => (⟨s, a.y, a.z⟩, b)
  | .ay, s => (⟨a.x, s, a.z⟩, b)
  | .az, s => (⟨a.x, a.y, s⟩, b)
  | .bx, s => (a, ⟨s, b.y, b.z⟩)
  | .by', s => (a, ⟨b.x, s, b.z⟩)
  | .bz, s => (a, ⟨b.x, b.y, s⟩)

/-- The value of a component. -/
def CComp.val (a b : V3) : CComp → ℝ
  | .ax => a.x | .ay => a.y | .az => a.z | .bx => b.x | .by' => b.y | .bz => b.z

/-- The key of a component: the letter d, the name of the operand, the letter of the component. -/
def CComp.key (na nb : String) : CComp → String
  | .ax => "d" ++ na ++ "x" | .ay => "d" ++ na ++ "y" | .az => "d" ++ na ++ "z"
  | .bx => "d" ++ nb ++ "x" | .by' => "d" ++ nb ++ "y" | .bz => "d" ++ nb ++ "z"

/-- `g` is the gradient of the component `f` of the cross product with respect to the operand whose components are `c`. -/
def CrossGrad (f : V3 → ℝ) (a b : V3) (c : Triple CComp) (g : Triple ℝ) : Prop :=
  HasDerivAt (fun s => f (V3.cross (c.x.shift a b s).1 (c.x.shift a b s).2)) g.x (c.x.val a b) ∧
  HasDerivAt (fun s => f (V3.cross (c.y.shift a b s).1 (c.y.shift a b s).2)) g.y (c.y.val a b) ∧
  HasDerivAt (fun s => f (V3.cross (c.z.shift a b s).1 (c.z.shift a b s).2)) g.z (c.z.val a b)

private theorem aff {f : ℝ → ℝ} {f' s0 : ℝ} (h : ∀ s, f s = f s0 + (s - s0) * f') : HasDerivAt f f' s0 := by
  have e : f = fun s => f s0 + (s - s0) * f' := funext h
  rw [e]
  simpa using (((hasDerivAt_id s0).sub_const s0).mul_const f').const_add (f s0)

private theorem key_ne {na nb : String} (h : na ≠ nb) (c d : CComp) (hcd : c ≠ d) : c.key na nb ≠ d.key na nb := by
  intro e
  have e1 := congrArg String.toList e
  have e2 := congrArg (fun s : String => s.toList.getLast?) e
  have h' : na.toList ≠ nb.toList := fun e => h (String.toList_injective e)
  have h'' := h'.symm
  cases c <;> cases d <;> simp [CComp.key, String.toList_append] at hcd e1 e2 <;> first | exact h' e1 | exact h'' e1

/-- **C05** `cross` computes the cross product, and `cross_deriv_array` holds, under the key made of the name of the operand and the
letter of the component, the exact partial derivatives of the three components of the cross product, for different names. -/
theorem cross_deriv_array_correct (a b : DirVec ℝ) (na nb : String) (h : na ≠ nb) :
    (a.cross b).vec = V3.cross a.vec b.vec ∧ ∀ k : CComp,
    ∃ tx ty tz, (a.crossDerivArray b na nb).x.get? (k.key na nb) = some tx ∧ (a.crossDerivArray b na nb).y.get? (k.key na nb) = some ty ∧
      (a.crossDerivArray b na nb).z.get? (k.key na nb) = some tz ∧
      HasDerivAt (fun s => (V3.cross (k.shift a.vec b.vec s).1 (k.shift a.vec b.vec s).2).x) tx (k.val a.vec b.vec) ∧
      HasDerivAt (fun s => (V3.cross (k.shift a.vec b.vec s).1 (k.shift a.vec b.vec s).2).y) ty (k.val a.vec b.vec) ∧
      HasDerivAt (fun s => (V3.cross (k.shift a.vec b.vec s).1 (k.shift a.vec b.vec s).2).z) tz (k.val a.vec b.vec) := by
  have hk := fun c d : CComp => key_ne h c d
  have e : ∀ v : CComp → ℝ, ∀ k : CComp, (DirVec.assigns [(CComp.key na nb .ax, v .ax), (CComp.key na nb .ay, v .ay),
      (CComp.key na nb .az, v .az), (CComp.key na nb .bx, v .bx), (CComp.key na nb .by', v .by'),
      (CComp.key na nb .bz, v .bz)]).get? (k.key na nb) = some (v k) := by
    intro v k
    have : (DirVec.assigns [(CComp.key na nb .ax, v .ax), (CComp.key na nb .ay, v .ay),
      (CComp.key na nb .az, v .az), (CComp.key na nb .bx, v .bx), (CComp.key na nb .by', v .by'),
      (CComp.key na nb .bz, v .bz)]) = [(CComp.key na nb .ax, v .ax), (CComp.key na nb .ay, v .ay),
      (CComp.key na nb .az, v .az), (CComp.key na nb .bx, v .bx), (CComp.key na nb .by', v .by'),
      (CComp.key na nb .bz, v .bz)] := by
      simp [DirVec.assigns, Dict.set, hk]
    rw [this]
    cases k <;> simp [Dict.get?, hk]
  refine ⟨rfl, fun k => ⟨_, _, _, e (fun c => match c with | .ax => 0 | .ay => b.z | .az => -b.y | .bx => 0 | .by' => -a.z | .bz => a.y) k,
    e (fun c => match c with | .ax => -b.z | .ay => 0 | .az => b.x | .bx => a.z | .by' => 0 | .bz => -a.x) k,
    e (fun c => match c with | .ax => b.y | .ay => -b.x | .az => 0 | .bx => -a.y | .by' => a.x | .bz => 0) k, ?_⟩⟩
  cases k <;> refine ⟨aff ?_, aff ?_, aff ?_⟩ <;> intro s <;>
    simp only [CComp.shift, CComp.val, V3.cross, DirVec.vec] <;> ring

/-- **C05** `cross_deriv` holds under the names of the operands the gradients of the three components of the cross product with respect
to the operands, for different names. -/
theorem cross_deriv_rows (a b : DirVec ℝ) (na nb : String) (h : na ≠ nb) (f : V3 → ℝ) (D : Dict String (Triple ℝ))
    (hf : (f, D) ∈ [(V3.x, (a.crossDeriv b na nb).x), (V3.y, (a.crossDeriv b na nb).y), (V3.z, (a.crossDeriv b na nb).z)]) :
    ∃ ga gb, D.get? na = some ga ∧ D.get? nb = some gb ∧ CrossGrad f a.vec b.vec ⟨.ax, .ay, .az⟩ ga ∧
      CrossGrad f a.vec b.vec ⟨.bx, .by', .bz⟩ gb := by
  simp only [List.mem_cons, Prod.mk.injEq, List.not_mem_nil, or_false] at hf
  rcases hf with ⟨rfl, rfl⟩ | ⟨rfl, rfl⟩ | ⟨rfl, rfl⟩ <;>
    refine ⟨_, _, by simp [DirVec.crossDeriv, DirVec.assigns, Dict.set, Dict.get?, h]; rfl,
      by simp [DirVec.crossDeriv, DirVec.assigns, Dict.set, Dict.get?, h]; rfl, ⟨aff ?_, aff ?_, aff ?_⟩, ⟨aff ?_, aff ?_, aff ?_⟩⟩ <;>
    intro s <;> simp only [CComp.shift, CComp.val, V3.cross, DirVec.vec] <;> ring

/-- **C05** (disagreement) the restriction to different names is needed: with the same name for both operands the entry is the derivative
with respect to the second, here `∂(a × b).x / ∂b.y = -3` under the key of `∂(a × b).x / ∂a.y = 6`. -/
theorem cross_deriv_same_name :
    ((DirVec.mk' (1:ℝ) 2 3).crossDerivArray (DirVec.mk' 4 5 6) "a" "a").x.get? "day" = some (-3) ∧
    HasDerivAt (fun s : ℝ => ((DirVec.mk' 1 s 3).cross (DirVec.mk' 4 5 6)).x) 6 2 := by
  constructor
  · simp [DirVec.crossDerivArray, DirVec.assigns, Dict.set, Dict.get?, DirVec.mk']
  · refine aff fun s => ?_
    simp only [DirVec.cross, DirVec.mk']
    ring

/-- A non-trivial instance: `∂(a × b).x / ∂a.y` at `a = (1,2,3)`, `b = (4,5,6)` is found under the key `day`. -/
example : ∃ t, ((DirVec.mk' (1:ℝ) 2 3).crossDerivArray (DirVec.mk' 4 5 6) "a" "b").x.get? "day" = some t ∧
    HasDerivAt (fun s : ℝ => s * 6 - 3 * 5) t 2 := by
  obtain ⟨t, _, _, h, _, _, h', _⟩ := (cross_deriv_array_correct (DirVec.mk' 1 2 3) (DirVec.mk' 4 5 6) "a" "b" (by decide)).2 .ay
  exact ⟨t, h, h'⟩

/-- **C86** (partial) The components of a vector given as an array of three numbers are these numbers, and `toArray` returns them in
one row, from which `fromArray` builds the vector again.  Missing: `fromArray(v.toArray())`, see `array_roundtrip_false`. -/
theorem array_roundtrip_partial {β : Type} (x y z : β) :
    fromArray [x, y, z] = .ok ⟨x, y, z⟩ ∧
    ∃ row, toArray ⟨[x], [y], [z]⟩ = .ok [row] ∧ fromArray row = .ok ⟨x, y, z⟩ := by
  exact ⟨rfl, [x, y, z], rfl, rfl⟩

/-- **C86** A vector is never recovered from its own array: the array has one row, `fromArray` raises `IndexError`.  For vectors of
arrays of at least three elements the call returns, with the first row in place of the x-components. -/
theorem array_roundtrip_false {β : Type} :
    (∀ x y z : β, ∃ A, toArray ⟨[x], [y], [z]⟩ = .ok A ∧ fromArray A = .error .indexError) ∧
    ∀ (v : Triple (List β)), v.x.length = v.y.length → v.x.length = v.z.length → 3 ≤ v.x.length →
      ∃ A w, toArray v = .ok A ∧ fromArray A = .ok w ∧ w.x.length = 3 ∧ w.x[0]? = v.x[0]? ∧ w.x[1]? = v.y[0]? ∧ w.x[2]? = v.z[0]? := by
  refine ⟨fun x y z => ⟨_, rfl, rfl⟩, ?_⟩
  rintro ⟨x, y, z⟩ h1 h2 h3
  match x, y, z, h1, h2, h3 with
  | x0 :: x1 :: x2 :: xs, y0 :: y1 :: y2 :: ys, z0 :: z1 :: z2 :: zs, h1, h2, _ =>
    exact ⟨_, ⟨[x0, y0, z0], [x1, y1, z1], [x2, y2, z2]⟩, by simp only [toArray]; rw [if_pos ⟨h1, h2⟩], rfl, rfl, rfl, rfl, rfl⟩

/-- So for three vectors with different components the x-components that come back are wrong. -/
example : ∃ A w, toArray (⟨[1, 2, 3], [4, 5, 6], [7, 8, 9]⟩ : Triple (List ℕ)) = .ok A ∧ fromArray A = .ok w ∧ w.x = [1, 4, 7] :=
  ⟨_, _, rfl, rfl, rfl⟩

/-- The components an operand contributes: those of the vector, or the scalar three times. -/
def opVec : DirVec.Operand ℝ → V3
  | .vec w => w.vec
  | .scal s => ⟨s, s, s⟩

/-- **C06** The operators act componentwise, for a vector and for a scalar operand. -/
theorem arith_componentwise (v : DirVec ℝ) (o : DirVec.Operand ℝ) :
    (v.add o).vec = ⟨v.x + (opVec o).x, v.y + (opVec o).y, v.z + (opVec o).z⟩ ∧
    (v.sub o).vec = ⟨v.x - (opVec o).x, v.y - (opVec o).y, v.z - (opVec o).z⟩ ∧
    (v.mul o).vec = ⟨v.x * (opVec o).x, v.y * (opVec o).y, v.z * (opVec o).z⟩ ∧
    (v.truediv o).vec = ⟨v.x / (opVec o).x, v.y / (opVec o).y, v.z / (opVec o).z⟩ ∧
    v.neg.vec = ⟨-v.x, -v.y, -v.z⟩ := by
  cases o <;> exact ⟨rfl, rfl, rfl, rfl, rfl⟩

/-- **C06** The in-place operators give the components of the binary ones. -/
theorem arith_inplace (v : DirVec ℝ) (o : DirVec.Operand ℝ) :
    (v.iadd o).vec = (v.add o).vec ∧ (v.isub o).vec = (v.sub o).vec ∧ (v.imul o).vec = (v.mul o).vec := by
  cases o <;> exact ⟨rfl, rfl, rfl⟩

/-- **C06** Subtraction is addition of the negative, and dividing then multiplying by a nonzero scalar returns the
vector. -/
theorem arith_laws (v w : DirVec ℝ) (s : ℝ) (hs : s ≠ 0) :
    (v.sub (.vec w)).vec = (v.add (.vec w.neg)).vec ∧
    ((v.truediv (.scal s)).mul (.scal s)).vec = v.vec := by
  conv_unfold
  refine ⟨by ext <;> simp only [] <;> ring, ?_⟩
  ext <;> simp only [] <;> field_simp

/-- **C06/C04** (disagreement): the derivative dictionaries do not survive arithmetic. The binary operators reset them
to those of a fresh vector, the in-place operators leave those of the old components, so a `*= 2` keeps derivatives
that are half of the true ones. -/
theorem arith_derivatives_stale :
    ((DirVec.mk' (1:ℝ) 0 0).imul (.scal 2)).d.get? .dx = some ⟨1, 0, 0⟩ ∧
    HasDerivAt (fun s => ((DirVec.mk' s 0 0).imul (.scal 2)).x) (2:ℝ) 1 := by
  refine ⟨rfl, ?_⟩
  simpa [DirVec.imul, DirVec.mk'] using (hasDerivAt_id (1:ℝ)).mul_const 2

end Verif
