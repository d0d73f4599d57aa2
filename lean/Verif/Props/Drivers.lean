import Verif.Props.Timed

/-!
# C94, C95, C24: the fixed-source driver and the form of its data

C94: all four outputs of `fixed1d.source_iteration` are readings of one discrete solution.
C95: anisotropic scattering and the outputs that need a known-source calculation.
C24: the drivers give identical answers for both forms of the fission data.
-/

set_option linter.unusedSectionVars false
set_option linter.unusedSimpArgs false

namespace Discrete1.Props

open Finset Discrete1.Spec Discrete1.Slab Discrete1.Tools Discrete1.MultiGroup Discrete1.Drivers

variable {K : Type*} [Field K] [LinearOrder K] [IsStrictOrderedRing K]

/-- `e g n i` (edge fluxes) solves, group by group, the discrete transport equation whose scattering and
fission source is that of the scalar flux `phi`. -/
def ScatteredOnce (p : Problem K) (sigma : ℕ → ℕ → K) (xs : ℕ → ℕ → ℕ → K) (ext bnd : Arr3 K)
    (phi : ℕ → ℕ → K) (e : ℕ → ℕ → ℕ → K) : Prop :=
  ∀ g < p.groups,
    (∀ n < p.angles, ∀ i < p.cells,
      p.angleX n * (e g n (i + 1) - e g n i) / p.dx i
          + sigma (p.mm i) g * ((e g n i + e g n (i + 1)) / 2)
        = ∑ g' ∈ range p.groups, xs (p.mm i) g g' * phi i g' + sourceAt ext i n g) ∧
    SweptInflow p.cells p.angles p.angleX p.bcL p.bcR (fun n => sourceAt bnd 0 n g)
      (fun n => sourceAt bnd 1 n g) (e g)

theorem scatteredOnce_unique {p : Problem K} {sigma : ℕ → ℕ → K} {xs : ℕ → ℕ → ℕ → K} {ext bnd : Arr3 K}
    {phi : ℕ → ℕ → K} {e e' : ℕ → ℕ → ℕ → K} (hok : ∀ g < p.groups, SlabOk p sigma g)
    (h : ScatteredOnce p sigma xs ext bnd phi e) (h' : ScatteredOnce p sigma xs ext bnd phi e') :
    ∀ g < p.groups, ∀ n < p.angles, ∀ i ≤ p.cells, e g n i = e' g n i := fun g hg =>
  swept_unique (hok g hg).nonzero (hok g hg).phys (h g hg).1 (h' g hg).1 (h g hg).2 (h' g hg).2

/-- The known-source calculation behind the angular and edge outputs, for every scalar flux. -/
theorem knownSourceCalculation_spec (p : Problem K) (flux : ℕ → ℕ → K) (xsTotal : ℕ → ℕ → K)
    (xs : ℕ → ℕ → ℕ → K) (external boundary : Arr3 K) (hok : ∀ g < p.groups, SlabOk p xsTotal g)
    (hA : 1 < p.angles) (hG : 0 < p.groups) :
    ∃ e : ℕ → ℕ → ℕ → K, ScatteredOnce p xsTotal xs external boundary flux e ∧
      (∃ f, knownSourceCalculation p flux xsTotal (.iso xs) external boundary true true
          = .ok (.angular f) ∧ ∀ g < p.groups, ∀ n < p.angles, ∀ i ≤ p.cells, f i n g = e g n i) ∧
      (∃ f, knownSourceCalculation p flux xsTotal (.iso xs) external boundary true false
          = .ok (.angular f) ∧
        ∀ g < p.groups, ∀ n < p.angles, ∀ i < p.cells, f i n g = (e g n i + e g n (i + 1)) / 2) ∧
      (∃ f, knownSourceCalculation p flux xsTotal (.iso xs) external boundary false true
          = .ok (.scalar f) ∧
        ∀ g < p.groups, ∀ i ≤ p.cells, f i g = ∑ n ∈ range p.angles, p.angleW n * e g n i) := by
  set source : Arr3 K := ⟨p.angles, p.groups, sourceTotal p.groups flux xs p.mm external⟩ with hsrc
  have hex := fun g (hg : g < p.groups) => C08_known_source_exists p xsTotal source boundary g (hok g hg)
  choose e he using hex
  set E : ℕ → ℕ → ℕ → K := fun g => if hg : g < p.groups then e g hg else fun _ _ => 0 with hE
  have hEg : ∀ g (hg : g < p.groups), E g = e g hg := fun g hg => by simp [hE, hg]
  have h0 : SlabOk p xsTotal 0 := hok 0 hG
  have key := fun g (hg : g < p.groups) =>
    C08_known_source p xsTotal source boundary g (hok g hg) (e g hg) (he g hg)
  refine ⟨E, fun g hg => ?_, ?_, ?_, ?_⟩
  · rw [hEg g hg]
    refine ⟨fun n hn i hi => ?_, (he g hg).2⟩
    rw [(he g hg).1 n hn i hi]
    simp only [hsrc, sourceTotal, bidx_full _ _ hn, bidx_full _ _ hg, accum_eq_sum]
    simp only [sourceAt, bidx]
    congr 1
    exact sum_congr rfl fun _ _ => mul_comm _ _
  · obtain ⟨f, hf, _⟩ := ((key 0 hG).2.2 hA rfl).2
    refine ⟨f, ?_, fun g hg n hn i hi => ?_⟩
    · unfold knownSourceCalculation
      simp only [Bool.true_eq_false, false_and, if_false]
      rw [← hsrc, hf]; rfl
    · obtain ⟨f', hf', h'⟩ := ((key g hg).2.2 hA rfl).2
      have : f = f' := Except.ok.inj (hf.symm.trans hf')
      rw [this, hEg g hg, h' n hn i hi]
  · obtain ⟨f, hf, _⟩ := ((key 0 hG).2.2 hA rfl).1
    refine ⟨f, ?_, fun g hg n hn i hi => ?_⟩
    · unfold knownSourceCalculation
      simp only [Bool.true_eq_false, false_and, if_false]
      rw [← hsrc, hf]; rfl
    · obtain ⟨f', hf', h'⟩ := ((key g hg).2.2 hA rfl).1
      have : f = f' := Except.ok.inj (hf.symm.trans hf')
      rw [this, hEg g hg, h' n hn i hi]
  · obtain ⟨f, hf, _⟩ := (key 0 hG).2.1
    refine ⟨f, ?_, fun g hg i hi => ?_⟩
    · unfold knownSourceCalculation
      simp only [true_and, and_self, if_true]
      rw [← hsrc, hf]; rfl
    · obtain ⟨f', hf', h'⟩ := (key g hg).2.1
      have : f = f' := Except.ok.inj (hf.symm.trans hf')
      rw [this, hEg g hg, h' i hi]; rfl

/-! ## C94 -/

/-- C94: `fixed1d.source_iteration` succeeds for every combination of `angular` and `edges`, and the four
outputs belong together: with `phi` the plain output there are edge fluxes `e`, solving the discrete
equation with the scattering and fission source of `phi`, such that the angular edge output is `e`, the
angular center output its cell average and the scalar edge output its quadrature sum.  If `phi` solves
the multigroup equations exactly, `phi` is the quadrature sum of the angular center output. -/
theorem C94_outputs_agree (p : Problem K) (xsTotal : ℕ → ℕ → K) (scatter : ℕ → ℕ → ℕ → K)
    (fission : Fission K) (external boundary : Arr3 K) (hok : ∀ g < p.groups, SlabOk p xsTotal g)
    (hA : 1 < p.angles) (hG : 0 < p.groups) :
    ∃ (phi phiE : ℕ → ℕ → K) (psi psiE : ℕ → ℕ → ℕ → K) (e : ℕ → ℕ → ℕ → K),
      fixedSourceIteration p xsTotal (.iso scatter) fission external boundary false false
        = .ok (.scalar phi) ∧
      fixedSourceIteration p xsTotal (.iso scatter) fission external boundary false true
        = .ok (.scalar phiE) ∧
      fixedSourceIteration p xsTotal (.iso scatter) fission external boundary true false
        = .ok (.angular psi) ∧
      fixedSourceIteration p xsTotal (.iso scatter) fission external boundary true true
        = .ok (.angular psiE) ∧
      ScatteredOnce p xsTotal (fun m g g' => scatter m g g' + fissionMatrix fission m g g') external
        boundary phi e ∧
      (∀ g < p.groups, ∀ n < p.angles, ∀ i ≤ p.cells, psiE i n g = e g n i) ∧
      (∀ g < p.groups, ∀ n < p.angles, ∀ i < p.cells, psi i n g = (psiE i n g + psiE (i + 1) n g) / 2) ∧
      (∀ g < p.groups, ∀ i ≤ p.cells, phiE i g = ∑ n ∈ range p.angles, p.angleW n * psiE i n g) ∧
      ((∃ e', SolvesMultigroup p xsTotal (fun m g g' => scatter m g g' + fissionMatrix fission m g g')
          external boundary phi e') →
        ∀ g < p.groups, ∀ i < p.cells, phi i g = ∑ n ∈ range p.angles, p.angleW n * psi i n g) := by
  set xs : ℕ → ℕ → ℕ → K := fun m g g' => scatter m g g' + fissionMatrix fission m g g' with hxs
  obtain ⟨x, s, _, _, _, _, hrun, _⟩ := C21_source_iteration_stops p xsTotal xs external boundary
    (fun _ _ => 0) hok
  obtain ⟨e, he, ⟨f1, h1, h1'⟩, ⟨f2, h2, h2'⟩, ⟨f3, h3, h3'⟩⟩ := knownSourceCalculation_spec p (x s)
    xsTotal xs external boundary hok hA hG
  have hfix : ∀ a b, fixedSourceIteration p xsTotal (.iso scatter) fission external boundary a b =
      if a = false ∧ b = false then .ok (.scalar (x s))
      else knownSourceCalculation p (x s) xsTotal (.iso xs) external boundary a b := by
    intro a b
    unfold fixedSourceIteration
    rw [transfer_iso]
    simp only
    rw [hrun]
  refine ⟨x s, f3, f2, f1, e, by rw [hfix]; simp, by rw [hfix]; simpa using h3,
    by rw [hfix]; simpa using h2, by rw [hfix]; simpa using h1, he, h1', ?_, ?_, ?_⟩
  · intro g hg n hn i hi
    rw [h2' g hg n hn i hi, h1' g hg n hn i hi.le, h1' g hg n hn (i + 1) hi]
  · intro g hg i hi
    rw [h3' g hg i hi]
    exact sum_congr rfl fun n hn => by rw [h1' g hg n (mem_range.mp hn) i hi]
  · rintro ⟨e', he'⟩ g hg i hi
    have hu := scatteredOnce_unique hok he (e' := e') (fun g hg => ⟨he'.balance g hg, he'.inflow g hg⟩)
    rw [he'.scalar g hg i hi]
    unfold scalarCenter
    refine sum_congr rfl fun n hn => ?_
    have hn := mem_range.mp hn
    rw [h2' g hg n hn i hi, hu g hg n hn i hi.le, hu g hg n hn (i + 1) hi]

example (external boundary : Arr3 ℚ) : ∃ phi psi,
    fixedSourceIteration exProblem exTotal (.iso fun _ g g' => 1 / (2 + g + g'))
      (.vector (fun _ g => g) fun _ g => 1 / (1 + g)) external boundary false false = .ok (.scalar phi) ∧
    fixedSourceIteration exProblem exTotal (.iso fun _ g g' => 1 / (2 + g + g'))
      (.vector (fun _ g => g) fun _ g => 1 / (1 + g)) external boundary true true = .ok (.angular psi) := by
  obtain ⟨phi, _, _, psi, _, h1, _, _, h4, _⟩ := C94_outputs_agree exProblem exTotal
    (fun _ g g' => 1 / (2 + (g : ℚ) + g')) (.vector (fun _ g => (g : ℚ)) fun _ g => 1 / (1 + (g : ℚ)))
    external boundary (fun g _ => exOk g) (by show 1 < 4; omega) (by show 0 < 2; omega)
  exact ⟨phi, psi, h1, h4⟩

/-! ## C95 -/

/-- C95 (violation): for anisotropic scattering (more than one Legendre moment or one, in any slab
problem) the plain scalar output is returned, but every output that needs a known-source calculation
raises TypeError. -/
theorem C95_violation_fixed_aniso (p : Problem K) (L : ℕ) (xsTotal : ℕ → ℕ → K)
    (scatter : ℕ → ℕ → ℕ → ℕ → K) (fission : Fission K) (external boundary : Arr3 K)
    (hok : ∀ g < p.groups, SlabOk p xsTotal g) :
    (∃ phi, fixedSourceIteration p xsTotal (.aniso L scatter) fission external boundary false false
      = .ok (.scalar phi)) ∧
    ∀ angular edges, angular = true ∨ edges = true →
      fixedSourceIteration p xsTotal (.aniso L scatter) fission external boundary angular edges
        = .error .typeError := by
  obtain ⟨xs, hxs⟩ : ∃ xs, transferMatrix (.aniso L scatter) fission = .aniso L xs := by
    cases fission <;> exact ⟨_, rfl⟩
  obtain ⟨x, s, _, _, _, _, hrun, _⟩ := C21_source_iteration_stops_aniso p L xsTotal xs external boundary
    (fun _ _ => 0) hok
  constructor
  · refine ⟨x s, ?_⟩
    unfold fixedSourceIteration
    rw [hxs]; simp only; rw [hrun]; simp
  · intro angular edges hae
    unfold fixedSourceIteration
    rw [hxs]; simp only; rw [hrun]
    rcases hae with h | h <;> subst h <;> simp [knownSourceCalculation]

/-- C95 (violation): the time integrators cannot take a step with anisotropic scattering. -/
theorem C95_violation_timed_aniso (p : Problem K) (L : ℕ) (xsTotal : ℕ → ℕ → K)
    (scatter : ℕ → ℕ → ℕ → ℕ → K) (fission : Fission K) (velocity : ℕ → K)
    (external boundary : TimeArr K) (steps : ℕ) (dt : K) (init : ℕ → ℕ → ℕ → K)
    (hok : TimedOk p xsTotal velocity dt) (hext : Covers external (steps + 1))
    (hbnd : Covers boundary (steps + 1)) :
    backwardEuler p xsTotal (.aniso L scatter) fission velocity external boundary (steps + 1) dt init
      = .error .typeError ∧
    bdf2 p xsTotal (.aniso L scatter) fission velocity external boundary (steps + 1) dt init
      = .error .typeError := by
  obtain ⟨xs, hxs⟩ : ∃ xs, transferMatrix (.aniso L scatter) fission = .aniso L xs := by
    cases fission <;> exact ⟨_, rfl⟩
  have hokV := xsStar_ok hok (zero_le_one (α := K))
  have hsolve : ∀ q bnd guess, timedSolve p (xsStar xsTotal 1 velocity dt) (.aniso L xs) q bnd guess
      = .error .typeError := by
    intro q bnd guess
    obtain ⟨x, s, _, _, _, _, hrun, _⟩ := C21_source_iteration_stops_aniso p L
      (xsStar xsTotal 1 velocity dt) xs (fullArr p q) bnd guess hokV
    unfold timedSolve
    rw [hrun]
  have first : ∀ {σ : Type _} (f : ℕ → σ → Except PyErr σ) (s : σ) (k : ℕ),
      f 0 s = .error .typeError → loopE (k + 1) f s = .error .typeError := by
    intro σ f s k h
    induction k with
    | zero => exact h
    | succ k ih => rw [loopE, ih]
  constructor
  · unfold backwardEuler
    rw [hxs, first]
    · rfl
    · unfold beStep
      rw [get_ok hext (Nat.succ_pos _), get_ok hbnd (Nat.succ_pos _)]
      simp only
      rw [hsolve]
  · unfold bdf2
    rw [hxs, first]
    · rfl
    · unfold bdfStep
      rw [get_ok hext (Nat.succ_pos _), get_ok hbnd (Nat.succ_pos _)]
      simp only
      rw [hsolve]

example : ∀ angular edges, angular = true ∨ edges = true →
    fixedSourceIteration exProblem exTotal (.aniso 2 fun _ g g' l => 1 / (2 + g + g' + l))
      (.matrix fun _ _ _ => 0) ⟨1, 1, fun _ _ _ => 1⟩ ⟨1, 1, fun _ _ _ => 0⟩ angular edges
      = .error .typeError :=
  (C95_violation_fixed_aniso exProblem 2 exTotal (fun _ g g' l => 1 / (2 + (g : ℚ) + g' + l))
    (.matrix fun _ _ _ => 0) ⟨1, 1, fun _ _ _ => 1⟩ ⟨1, 1, fun _ _ _ => 0⟩ fun g _ => exOk g).2

example : backwardEuler exProblem exTotal (.aniso 2 fun _ g g' l => 1 / (2 + g + g' + l))
    (.matrix fun _ _ _ => 0) (fun g => (g : ℚ) + 1) exExternal exBoundary 3 (1 / 10) (fun _ _ _ => 1)
    = .error .typeError :=
  (C95_violation_timed_aniso exProblem 2 exTotal (fun _ g g' l => 1 / (2 + (g : ℚ) + g' + l))
    (.matrix fun _ _ _ => 0) _ exExternal exBoundary 2 (1 / 10) _ exTimed (Or.inr (le_refl _))
    (Or.inl rfl)).1

/-! ## C24 at the drivers -/

/-- C24 for whole calculations: every fixed-source and time-dependent driver returns exactly the same
result (or raises the same exception) for `chi`, `nusigf` vectors and for the equivalent fission matrix
`chi[g] nusigf[g']`, in both geometries, for isotropic and anisotropic scattering. -/
theorem C24_drivers (p pC : Problem K) (xsTotal xsTotalC : ℕ → ℕ → K) (scatter scatterC : Scatter K)
    (chi nusigf chiC nusigfC : ℕ → ℕ → K) :
    (∀ external boundary angular edges,
      fixedSourceIteration p xsTotal scatter (.vector chi nusigf) external boundary angular edges
        = fixedSourceIteration p xsTotal scatter (.matrix fun m g g' => chi m g * nusigf m g') external
            boundary angular edges) ∧
    (∀ velocity external boundary steps dt init,
      backwardEuler p xsTotal scatter (.vector chi nusigf) velocity external boundary steps dt init
        = backwardEuler p xsTotal scatter (.matrix fun m g g' => chi m g * nusigf m g') velocity external
            boundary steps dt init ∧
      bdf2 p xsTotal scatter (.vector chi nusigf) velocity external boundary steps dt init
        = bdf2 p xsTotal scatter (.matrix fun m g g' => chi m g * nusigf m g') velocity external
            boundary steps dt init) ∧
    (∀ second velocity velocityC external boundary coarseIdx factor steps dt init,
      hybridRun second p pC xsTotal xsTotalC scatter scatterC (.vector chi nusigf) (.vector chiC nusigfC)
          velocity velocityC external boundary coarseIdx factor steps dt init
        = hybridRun second p pC xsTotal xsTotalC scatter scatterC
            (.matrix fun m g g' => chi m g * nusigf m g') (.matrix fun m g g' => chiC m g * nusigfC m g')
            velocity velocityC external boundary coarseIdx factor steps dt init) := by
  have h : ∀ (s : Scatter K) (a b : ℕ → ℕ → K),
      transferMatrix s (.vector a b) = transferMatrix s (.matrix fun m g g' => a m g * b m g') := by
    intro s a b; cases s <;> rfl
  refine ⟨fun _ _ _ _ => ?_, fun _ _ _ _ _ _ => ⟨?_, ?_⟩, fun _ _ _ _ _ _ _ _ _ _ => ?_⟩
  · unfold fixedSourceIteration; rw [h]
  · unfold backwardEuler; rw [h]
  · unfold bdf2; rw [h]
  · unfold hybridRun; rw [h, h]

example : fixedSourceIteration exProblem exTotal (.iso fun _ _ _ => 1 / 4)
      (.vector (fun _ g => if g = 0 then 1 else 0) fun _ g => 1 / (1 + g)) ⟨1, 1, fun _ _ _ => 1⟩
      ⟨1, 1, fun _ _ _ => 0⟩ true true
    = fixedSourceIteration exProblem exTotal (.iso fun _ _ _ => 1 / 4)
      (.matrix fun _ g g' => (if g = 0 then 1 else 0) * (1 / (1 + g'))) ⟨1, 1, fun _ _ _ => 1⟩
      ⟨1, 1, fun _ _ _ => 0⟩ true true :=
  (C24_drivers exProblem exProblem exTotal exTotal (.iso fun _ _ _ => 1 / 4) (.iso fun _ _ _ => 1 / 4)
    (fun _ g => if g = 0 then 1 else 0) (fun _ g => 1 / (1 + (g : ℚ))) (fun _ _ => 0) fun _ _ => 0).1 _ _ _ _

end Discrete1.Props
