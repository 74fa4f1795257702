import Verif.Lemmas.Component
import Mathlib.Analysis.SpecialFunctions.Trigonometric.Deriv
import Mathlib.Algebra.BigOperators.Intervals
import Mathlib.Tactic.FieldSimp

/-!
# The geometry component (C69)
-/

namespace Verif

/-! ## Specification -/

/-- A curve of inputs of `CCBladeGeometry` (the option `n_span` is fixed) has velocity `V` at `t`. -/
structure GeomIn.HasDeriv (n : ℕ) (X : ℝ → GeomIn ℝ) (V : GeomIn ℝ) (t : ℝ) : Prop where
  span : ∀ s, (X s).n = n
  Rtip : HasDerivAt (fun s => (X s).Rtip) V.Rtip t
  precurve : ∀ j < n, HasDerivAt (fun s => (X s).precurve j) (V.precurve j) t
  presweep : ∀ j < n, HasDerivAt (fun s => (X s).presweep j) (V.presweep j) t
  precone : HasDerivAt (fun s => (X s).precone) V.precone t

/-- The change of output `out` that the Jacobian predicts: each block times the velocity of its input. -/
noncomputable def geomApply (n : ℕ) (J : Jac ℝ) (out : String) (V : GeomIn ℝ) : ℝ :=
  J.at out "Rtip" 0 0 * V.Rtip + J.at out "precone" 0 0 * V.precone
  + (∑ j ∈ Finset.range n, J.at out "precurve_in" 0 j * V.precurve j)
  + ∑ j ∈ Finset.range n, J.at out "presweep_in" 0 j * V.presweep j

/-- The outputs by name. -/
def GeomOut.named (o : GeomOut ℝ) : String → ℝ
  | "R" => o.R
  | "diameter" => o.diameter
  | "precurveTip" => o.precurveTip
  | "presweepTip" => o.presweepTip
  | _ => 0

/-! ## C69 -/

/-- **C69** the geometry component returns the radius of the tip about the shaft of the coned blade, twice that radius, and the
offsets of the outermost station. -/
theorem geometry_values (x : GeomIn ℝ) (hn : 0 < x.n) : ∃ o, x.compute = .ok o ∧
    o.R = x.Rtip * Real.cos (x.precone * (Real.pi / 180)) + x.precurve (x.n - 1) * Real.sin (x.precone * (Real.pi / 180)) ∧
    o.diameter = 2 * o.R ∧ o.precurveTip = x.precurve (x.n - 1) ∧ o.presweepTip = x.presweep (x.n - 1) := by
  have h : x.n ≠ 0 := by omega
  refine ⟨_, by simp only [GeomIn.compute, h, if_false]; rfl, ?_, ?_, rfl, rfl⟩
  · simp only [cosd, sind, num_real]
  · simp only [num_real]
    push_cast
    ring

theorem sum_last {n : ℕ} (hn : 0 < n) (c : ℝ) (f : ℕ → ℝ) :
    ∑ j ∈ Finset.range n, (if j = n - 1 then c else 0) * f j = c * f (n - 1) := by
  rw [Finset.sum_eq_single (n - 1)]
  · simp
  · intro j _ h
    simp [h]
  · intro h
    exact absurd (Finset.mem_range.mpr (by omega)) h

/-- **C69** the Jacobian of the geometry component is exact: along every differentiable curve of inputs each of the four outputs
changes at the rate that the Jacobian predicts (precone in degrees). -/
theorem geometry_partials (n : ℕ) (hn : 0 < n) (X : ℝ → GeomIn ℝ) (V : GeomIn ℝ) (t : ℝ) (hV : GeomIn.HasDeriv n X V t) :
    ∃ J, (X t).partials = .ok J ∧ ∀ out ∈ ["R", "diameter", "precurveTip", "presweepTip"],
      ∃ f : ℝ → ℝ, (∀ s, ∃ o, (X s).compute = .ok o ∧ o.named out = f s) ∧ HasDerivAt f (geomApply n J out V) t := by
  have hs : ∀ s, (X s).n ≠ 0 := fun s => by rw [hV.span s]; omega
  have hlast : n - 1 < n := by omega
  refine ⟨_, by simp only [GeomIn.partials, hs t, if_false]; rfl, ?_⟩
  have hcone : HasDerivAt (fun s => (X s).precone * (Real.pi / 180)) (V.precone * (Real.pi / 180)) t := hV.precone.mul_const _
  have hR := (hV.Rtip.mul hcone.cos).add ((hV.precurve _ hlast).mul hcone.sin)
  intro out hout
  simp only [List.mem_cons, List.not_mem_nil, or_false] at hout
  rcases hout with rfl | rfl | rfl | rfl
  · refine ⟨_, fun s => ?_, hR.congr_deriv ?_⟩
    · obtain ⟨o, ho, h1, -⟩ := geometry_values (X s) (by have := hs s; omega)
      refine ⟨o, ho, ?_⟩
      simp only [GeomOut.named, h1, hV.span, Pi.add_apply, Pi.mul_apply]
    · simp only [geomApply, Jac.at, List.lookup, lastEntry, scalarBlock, hV.span, BEq.beq, decide_true, decide_false,
        Bool.and_true, Bool.and_false, sum_last hn, cosd, sind, num_real, String.reduceEq]
      push_cast
      simp
      ring
  · refine ⟨_, fun s => ?_, (hR.const_mul 2).congr_deriv ?_⟩
    · obtain ⟨o, ho, h1, h2, -⟩ := geometry_values (X s) (by have := hs s; omega)
      refine ⟨o, ho, ?_⟩
      simp only [GeomOut.named, h2, h1, hV.span, Pi.add_apply, Pi.mul_apply]
    · simp only [geomApply, Jac.at, List.lookup, lastEntry, scalarBlock, hV.span, BEq.beq, decide_true, decide_false,
        Bool.and_true, Bool.and_false, sum_last hn, cosd, sind, num_real, String.reduceEq]
      push_cast
      simp
      ring
  · refine ⟨_, fun s => ?_, (hV.precurve _ hlast).congr_deriv ?_⟩
    · obtain ⟨o, ho, -, -, h3, -⟩ := geometry_values (X s) (by have := hs s; omega)
      exact ⟨o, ho, by simp only [GeomOut.named, h3, hV.span]⟩
    · simp only [geomApply, Jac.at, List.lookup, lastEntry, scalarBlock, hV.span, BEq.beq, decide_true, decide_false,
        Bool.and_true, Bool.and_false, sum_last hn, cosd, sind, num_real, String.reduceEq]
      simp
  · refine ⟨_, fun s => ?_, (hV.presweep _ hlast).congr_deriv ?_⟩
    · obtain ⟨o, ho, -, -, -, h4⟩ := geometry_values (X s) (by have := hs s; omega)
      exact ⟨o, ho, by simp only [GeomOut.named, h4, hV.span]⟩
    · simp only [geomApply, Jac.at, List.lookup, lastEntry, scalarBlock, hV.span, BEq.beq, decide_true, decide_false,
        Bool.and_true, Bool.and_false, sum_last hn, cosd, sind, num_real, String.reduceEq]
      simp

/-- A blade with prebend whose cone angle and tip offset change at the same time. -/
example : GeomIn.HasDeriv 3 (fun s => ⟨3, 60 + s, fun j => j + s, fun j => 2 * j * s, 4 * s⟩)
    ⟨3, 1, fun _ => 1, fun j => 2 * j, 4⟩ (1 / 2) := by
  refine ⟨fun _ => rfl, ?_, fun j _ => ?_, fun j _ => ?_, ?_⟩
  · exact ((hasDerivAt_id _).const_add _)
  · exact ((hasDerivAt_id _).const_add _)
  · exact ((hasDerivAt_id _).const_mul _).congr_deriv (by simp)
  · exact ((hasDerivAt_id _).const_mul _).congr_deriv (by simp)

end Verif
