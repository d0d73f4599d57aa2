import Verif.Props.Sphere

/-!
# C105: the sphere sweep with a predicted scattering source

`scatter_source_sn` (spatial_sweep.py:221-260, sphere branch 1964-2291) is the sweep used when a model
supplies the scattering source.  A user expects it to be the ordinary transport sweep with that source:
the same incoming boundary flux, the same equations.
-/

set_option linter.unusedSectionVars false
set_option linter.unusedSimpArgs false

namespace Discrete1.Props

open Finset Discrete1.Spec Discrete1.Slab Discrete1.Tools Discrete1.MultiGroup Discrete1.Drivers

variable {K : Type} [Field K] [LinearOrder K] [IsStrictOrderedRing K]

/-- C105, the part that holds: with no flux entering from outside, the sphere's scattering-source sweep is
exactly the ordinary sweep with that source and no further scattering. -/
theorem C105_vacuum_partial (N A : ℕ) (pi : K) (xsTotal source : ℕ → K) (external boundary : Arr2 K) (mm : ℕ → ℕ)
    (dx mu w old : ℕ → K) (hb : ∀ n, boundary.val 1 n = 0) :
    Sphere.scatterSourceSn N A pi xsTotal source external boundary mm dx mu w
      = Sphere.isotropicSweep N A pi xsTotal (fun _ => 0) source external boundary mm dx mu w false old := by
  unfold Sphere.scatterSourceSn Sphere.isotropicSweep Sphere.backwardScatter Sphere.angleLoop
  simp only [hb, mul_zero, zero_mul, add_zero]

/-- C105 fails: whatever enters the sphere along the inward ordinates is ignored.  Two boundary arrays that
agree only in the first column (used for the starting direction) give the same answer. -/
theorem C105_violation_ignored (N A : ℕ) (pi : K) (xsTotal source : ℕ → K) (external boundary boundary' : Arr2 K)
    (mm : ℕ → ℕ) (dx mu w : ℕ → K) (h0 : boundary.val 1 0 = boundary'.val 1 0) :
    Sphere.scatterSourceSn N A pi xsTotal source external boundary mm dx mu w
      = Sphere.scatterSourceSn N A pi xsTotal source external boundary' mm dx mu w := by
  unfold Sphere.scatterSourceSn Sphere.backwardScatter
  rw [h0]
  rfl

/-- C105 fails observably: one shell, two ordinates, unit boundary flux and no sources.  The ordinary sweep
and the scattering-source sweep are the same problem but give different fluxes. -/
theorem C105_violation_differs :
    ∃ a b : ℕ → ℚ,
      Sphere.isotropicSweep 1 2 1 (fun _ => 1) (fun _ => 0) (fun _ => 0) ⟨1, fun _ _ => 0⟩
        ⟨1, fun _ _ => 1⟩ (fun _ => 0) (fun _ => 1) (fun n => if n = 0 then -1 / 2 else 1 / 2)
        (fun _ => 1 / 2) false (fun _ => 0) = .ok a ∧
      Sphere.scatterSourceSn 1 2 1 (fun _ => 1) (fun _ => 0) ⟨1, fun _ _ => 0⟩
        ⟨1, fun _ _ => 1⟩ (fun _ => 0) (fun _ => 1) (fun n => if n = 0 then -1 / 2 else 1 / 2)
        (fun _ => 1 / 2) = .ok b ∧ a 0 ≠ b 0 := by
  simp only [Sphere.isotropicSweep, Sphere.scatterSourceSn, Sphere.angleLoop, loopE, Except.map]
  norm_num [Sphere.backwardScatter, Sphere.backward, Sphere.forward, loopDown, loop, Sphere.cellUpdate,
    Sphere.centerBackward, Sphere.centerForward, Sphere.area1, Sphere.area2, Sphere.volume, Sphere.halfAngle,
    Sphere.angleCoefCorrector, addAt, setAt, bidx, sum_range_succ, bind, Except.bind, pure, Except.pure]

example := C105_vacuum_partial 3 2 (3 : ℚ) (fun _ => 1) (fun i => (i : ℚ)) ⟨1, fun _ _ => 1⟩
  ⟨1, fun t n => if t = 1 then 0 else (n : ℚ)⟩ (fun _ => 0) (fun _ => 1)
  (fun n => if n = 0 then -1 / 2 else 1 / 2) (fun _ => 1 / 2) (fun _ => 0) (fun _ => by simp)

example := C105_violation_ignored 3 2 (3 : ℚ) (fun _ => 1) (fun i => (i : ℚ)) ⟨1, fun _ _ => 1⟩
  ⟨2, fun _ n => (n : ℚ)⟩ ⟨2, fun _ n => 5 * (n : ℚ)⟩ (fun _ => 0) (fun _ => 1)
  (fun n => if n = 0 then -1 / 2 else 1 / 2) (fun _ => 1 / 2) (by simp)

end Discrete1.Props
