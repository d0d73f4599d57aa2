import Verif.Props.Timed
import Verif.Props.Drivers
import Verif.Props.Within

/-!
# C187: the geometry flag

The documented values are 1 (slab) and 2 (sphere).  Other values should be refused.
-/

set_option linter.unusedSectionVars false
set_option linter.unusedSimpArgs false

namespace Discrete1.Props

open Finset Discrete1.Spec Discrete1.Slab Discrete1.Tools Discrete1.MultiGroup Discrete1.Drivers

section General

variable {K : Type} [Field K] [LinearOrder K] [IsStrictOrderedRing K]

/-- A loop whose body returns its argument returns its argument. -/
theorem loopE_skip {σ ε : Type} (n : ℕ) (f : ℕ → σ → Except ε σ) (s : σ) (h : ∀ i, f i s = .ok s) :
    loopE n f s = .ok s := by
  obtain ⟨s', h1, h2⟩ := loopE_inv (fun _ x => x = s) n f s rfl (fun i _ x hx => ⟨s, by rw [hx]; exact h i, rfl⟩)
  rw [h1, h2]

/-- An iteration whose sweep always returns `b` returns `b`. -/
theorem iterateE_const {α ε : Type} (sweep : α → Except ε α) (conv : α → α → Bool) (left : ℕ) (old b : α)
    (h : ∀ a, sweep a = .ok b) : iterateE sweep conv left old = .ok b := by
  obtain ⟨x, k, _, _, hs, _, he, _, _⟩ := iterateE_spec sweep conv (fun _ => True) (fun a _ => ⟨b, h a, trivial⟩)
    left old trivial
  have := hs k le_rfl
  rw [h] at this
  rw [he, ← Except.ok.inj this]

/-- C187 is violated: with any other value of `geometry` source iteration, isotropic or anisotropic, whatever the data,
returns a zero flux without an error. -/
theorem C187_violation_source_iteration (p : Problem K) (hg1 : p.geometry ≠ 1) (hg2 : p.geometry ≠ 2)
    (xsTotal : ℕ → ℕ → K) (scatter : Scatter K) (ext bnd : Arr3 K) (guess : ℕ → ℕ → K) :
    sourceIteration p xsTotal scatter ext bnd guess = .ok fun _ _ => 0 := by
  cases scatter with
  | iso xs =>
    refine iterateE_const _ _ _ _ _ fun a => loopE_skip _ _ _ fun i => ?_
    unfold groupStepIso
    simp only [if_neg hg1, if_neg hg2]
  | aniso L xs =>
    refine iterateE_const _ _ _ _ _ fun a => loopE_skip _ _ _ fun i => ?_
    unfold groupStepAniso
    simp only [if_neg hg1, if_neg hg2]

/-- ... so does `fixed1d.source_iteration`, ... -/
theorem C187_violation_fixed_source (p : Problem K) (hg1 : p.geometry ≠ 1) (hg2 : p.geometry ≠ 2)
    (xsTotal : ℕ → ℕ → K) (xs : ℕ → ℕ → ℕ → K) (fission : Fission K) (ext bnd : Arr3 K) (angular edges : Bool) :
    fixedSourceIteration p xsTotal (.iso xs) fission ext bnd angular edges
      = .ok (if angular = false then .scalar fun _ _ => 0 else .angular fun _ _ _ => 0) := by
  unfold fixedSourceIteration
  rw [transfer_iso]
  simp only [C187_violation_source_iteration p hg1 hg2]
  unfold knownSourceCalculation knownSourceScalar knownSourceAngular
  cases angular <;> cases edges <;> simp [hg1, hg2, Except.map]

/-- ... and a time step with them, ... -/
theorem timedSolve_other (p : Problem K) (hg1 : p.geometry ≠ 1) (hg2 : p.geometry ≠ 2) (xsV : ℕ → ℕ → K)
    (xs : ℕ → ℕ → ℕ → K) (q : ℕ → ℕ → ℕ → K) (bnd : Arr3 K) (guess : ℕ → ℕ → K) :
    timedSolve p xsV (.iso xs) q bnd guess = .ok (fun _ _ => 0, fun _ _ _ => 0) := by
  unfold timedSolve
  rw [C187_violation_source_iteration p hg1 hg2]
  unfold knownSourceAngular
  simp [hg1, hg2]

/-- ... and both time integrators lose the initial flux in the first step: all returned fluxes are zero. -/
theorem C187_violation_backward_euler (p : Problem K) (hg1 : p.geometry ≠ 1) (hg2 : p.geometry ≠ 2)
    (xsTotal : ℕ → ℕ → K) (xs : ℕ → ℕ → ℕ → K) (fission : Fission K) (velocity : ℕ → K) (external boundary : TimeArr K)
    (steps : ℕ) (dt : K) (init : ℕ → ℕ → ℕ → K) (hext : Covers external steps) (hbnd : Covers boundary steps) :
    backwardEuler p xsTotal (.iso xs) fission velocity external boundary steps dt init = .ok fun _ _ _ => 0 := by
  unfold backwardEuler
  rw [transfer_iso]
  obtain ⟨s, h1, h2⟩ := loopE_inv (fun _ (s : BEState K) => s.out = fun _ _ _ => 0) steps
    (beStep p xsTotal (.iso fun m g g' => xs m g g' + fissionMatrix fission m g g') velocity external boundary dt)
    ⟨scalarFlux p init, init, fun _ _ _ => 0⟩ rfl (fun j hj s hs => by
      refine ⟨⟨fun _ _ => 0, fun _ _ _ => 0, Function.update s.out j fun _ _ => 0⟩, ?_, ?_⟩
      · unfold beStep
        rw [get_ok hext hj, get_ok hbnd hj]
        simp only [timedSolve_other p hg1 hg2]
      · simp only [hs]
        exact Function.update_eq_self j (fun _ _ _ => (0 : K)))
  rw [h1]
  exact congrArg Except.ok h2

/-- The same for `timed1d.bdf2`. -/
theorem C187_violation_bdf2 (p : Problem K) (hg1 : p.geometry ≠ 1) (hg2 : p.geometry ≠ 2)
    (xsTotal : ℕ → ℕ → K) (xs : ℕ → ℕ → ℕ → K) (fission : Fission K) (velocity : ℕ → K) (external boundary : TimeArr K)
    (steps : ℕ) (dt : K) (init : ℕ → ℕ → ℕ → K) (hext : Covers external steps) (hbnd : Covers boundary steps) :
    bdf2 p xsTotal (.iso xs) fission velocity external boundary steps dt init = .ok fun _ _ _ => 0 := by
  unfold bdf2
  rw [transfer_iso]
  obtain ⟨s, h1, h2⟩ := loopE_inv (fun _ (s : BDFState K) => s.out = fun _ _ _ => 0) steps
    (bdfStep p xsTotal (.iso fun m g g' => xs m g g' + fissionMatrix fission m g g') velocity external boundary dt)
    ⟨scalarFlux p init, init, fun _ _ _ => 0, xsStar xsTotal 1 velocity dt, fun _ _ _ => 0⟩ rfl (fun j hj s hs => by
      refine ⟨⟨fun _ _ => 0, fun _ _ _ => 0, s.psi1, if j = 0 then xsStar xsTotal (3 / 2) velocity dt else s.xsV,
        Function.update s.out j fun _ _ => 0⟩, ?_, ?_⟩
      · unfold bdfStep
        rw [get_ok hext hj, get_ok hbnd hj]
        simp only [timedSolve_other p hg1 hg2]
      · simp only [hs]
        exact Function.update_eq_self j (fun _ _ _ => (0 : K)))
  rw [h1]
  exact congrArg Except.ok h2

end General

/-! ### Example: `geometry=3`, positive sources -/

/-- The example slab with `geometry=3`. -/
def exCylinder : Problem ℚ := { exFine with geometry := 3 }

example := C187_violation_source_iteration exCylinder (by decide) (by decide) (fun _ _ => 1) (.iso fun _ _ _ => 1 / 4)
  ⟨1, 1, fun _ _ _ => 1⟩ zeroBoundary (fun _ _ => 1)

example := C187_violation_fixed_source exCylinder (by decide) (by decide) (fun _ _ => 1) (fun _ _ _ => 1 / 4)
  (.matrix fun _ _ _ => 1 / 8) ⟨1, 1, fun _ _ _ => 1⟩ zeroBoundary false false

example := C187_violation_backward_euler exCylinder (by decide) (by decide) (fun _ _ => 1) (fun _ _ _ => 1 / 4)
  (.matrix fun _ _ _ => 1 / 8) (fun _ => 1) ⟨1, fun _ => ⟨1, 1, fun _ _ _ => 1⟩⟩ ⟨1, fun _ => zeroBoundary⟩ 7 (1 / 4)
  (fun _ _ _ => 1) (Or.inl rfl) (Or.inl rfl)

example := C187_violation_bdf2 exCylinder (by decide) (by decide) (fun _ _ => 1) (fun _ _ _ => 1 / 4)
  (.matrix fun _ _ _ => 1 / 8) (fun _ => 1) ⟨1, fun _ => ⟨1, 1, fun _ _ _ => 1⟩⟩ ⟨1, fun _ => zeroBoundary⟩ 7 (1 / 4)
  (fun _ _ _ => 1) (Or.inl rfl) (Or.inl rfl)

end Discrete1.Props
