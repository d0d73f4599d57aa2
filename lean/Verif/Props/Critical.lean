import Verif.Props.Existence
import Verif.Props.Tools
import Verif.Props.Collect
import Verif.Spec.Eigen
import Verif.Model.Critical
import Mathlib.Analysis.Real.Sqrt

/-!
# C27, C28, C54 (power iterations)
-/

set_option linter.unusedSectionVars false
set_option linter.unusedSimpArgs false

namespace Discrete1.Props

open Finset Discrete1.Tools Discrete1.Spec Discrete1.Slab Discrete1.MultiGroup Discrete1.Drivers Discrete1.Critical

section Generic

variable {K : Type*} [Field K] [LinearOrder K] [IsStrictOrderedRing K]

theorem _root_.Discrete1.Spec.Run.cons {S : Type*} {step : S → Except PyErr S} {conv : S → S → Bool} {limit : ℕ} {s s' : S}
    {x : ℕ → S} {n : ℕ} (h1 : step s = .ok s') (h2 : conv s' s = false) (h : Run step conv limit s' x n) :
    Run step conv (limit + 1) s (fun j => if j = 0 then s else x (j - 1)) (n + 1) where
  start := rfl
  pos := by omega
  le := by have := h.le; omega
  steps := by
    intro j hj
    rcases j with _ | j
    · simp [h1, h.start]
    · have := h.steps j (by omega)
      simpa using this
  stopped := by
    intro hl
    have h3 := h.stopped (by omega)
    have := h.pos
    simp only [if_neg (show n + 1 ≠ 0 by omega), Nat.add_sub_cancel, if_neg (show n ≠ 0 by omega)]
    exact h3
  notBefore := by
    intro j hj hn
    have h3 := h.notBefore (j - 1)
    rcases j with _ | _ | j
    · omega
    · simp only [zero_add, one_ne_zero, if_false, Nat.sub_self, h.start, if_true, h2]
    · have := h.notBefore (j + 1) (by omega) (by omega)
      simpa using this

theorem _root_.Discrete1.Spec.Run.one {S : Type*} {step : S → Except PyErr S} {conv : S → S → Bool} {limit : ℕ} {s s' : S}
    (h1 : step s = .ok s') (h2 : 0 < limit → conv s' s = true) :
    Run step conv (limit + 1) s (fun j => if j = 0 then s else s') 1 where
  start := rfl
  pos := le_refl _
  le := by omega
  steps := by intro j hj; have : j = 0 := by omega
              subst this; simpa using h1
  stopped := by intro hl; simpa using h2 (by omega)
  notBefore := by intro j h1 h2; omega

theorem powerLoop_spec (step : KState K → Except PyErr (KState K)) (conv : (ℕ → ℕ → K) → (ℕ → ℕ → K) → Bool)
    (P : KState K → Prop) (hstep : ∀ s, P s → ∃ s', step s = .ok s' ∧ P s') :
    ∀ left count s, P s → ∃ x n, Run step (fun a b => conv a.flux b.flux) (left + 1) s x n ∧
      powerLoop step conv left count s = .ok (x n, count + n) := by
  intro left
  induction left with
  | zero =>
    intro count s hs
    obtain ⟨s', h1, h2⟩ := hstep s hs
    refine ⟨_, 1, Run.one h1 (fun h => absurd h (lt_irrefl 0)), ?_⟩
    simp [powerLoop, h1]
  | succ left ih =>
    intro count s hs
    obtain ⟨s', h1, h2⟩ := hstep s hs
    by_cases hc : conv s'.flux s.flux = true
    · refine ⟨_, 1, Run.one h1 (fun _ => hc), ?_⟩
      simp [powerLoop, h1, hc]
    · obtain ⟨x, n, hr, he⟩ := ih (count + 1) s' h2
      refine ⟨_, n + 1, Run.cons h1 (by simpa using hc) hr, ?_⟩
      simp only [powerLoop, h1, hc, if_false, he, if_neg (show n + 1 ≠ 0 by omega), Nat.add_sub_cancel]
      simp only [Bool.false_eq_true, if_false]
      congr 2; omega

theorem powerStep_ok (p : Problem K) (norm : (ℕ → ℕ → K) → K) (xsTotal : ℕ → ℕ → K) (scatter : Scatter K)
    (fission : Fission K) (hok : ∀ g < p.groups, SlabOk p xsTotal g) (s : KState K) :
    ∃ flux, sourceIteration p xsTotal scatter (fissionSource p.groups p.mm fission s.flux s.keff) zeroBoundary
        s.flux = .ok flux ∧
      powerStep p norm xsTotal scatter fission s
        = .ok ⟨normalise norm flux, updateKeff p.cells p.groups p.mm fission flux s.flux s.keff⟩ := by
  obtain ⟨flux, h⟩ : ∃ flux, sourceIteration p xsTotal scatter
      (fissionSource p.groups p.mm fission s.flux s.keff) zeroBoundary s.flux = .ok flux := by
    cases scatter with
    | iso xs =>
      obtain ⟨x, n, _, _, _, _, h, _⟩ := C21_source_iteration_stops p xsTotal xs
        (fissionSource p.groups p.mm fission s.flux s.keff) zeroBoundary s.flux hok
      exact ⟨_, h⟩
    | aniso L xs =>
      obtain ⟨x, n, _, _, _, _, h, _⟩ := C21_source_iteration_stops_aniso p L xsTotal xs
        (fissionSource p.groups p.mm fission s.flux s.keff) zeroBoundary s.flux hok
      exact ⟨_, h⟩
  exact ⟨flux, h, by unfold powerStep; rw [h]⟩

/-- C27: `power_iteration` on a slab performs `n` passes with `1 <= n <= 100`, returns the state after the last
pass, stops before pass 100 only if the criterion held and at the first such pass.  Isotropic and anisotropic
scattering, matrix and vector fission, any starting flux. -/
theorem C27_power_iteration_stops (p : Problem K) (norm : (ℕ → ℕ → K) → K)
    (conv : (ℕ → ℕ → K) → (ℕ → ℕ → K) → Bool) (xsTotal : ℕ → ℕ → K) (scatter : Scatter K)
    (fission : Fission K) (random : ℕ → ℕ → K) (hok : ∀ g < p.groups, SlabOk p xsTotal g) :
    ∃ x n, Run (powerStep p norm xsTotal scatter fission) (fun a b => conv a.flux b.flux) 100
        (start norm random) x n ∧
      powerIteration p norm conv xsTotal scatter fission random = .ok (x n, n) := by
  obtain ⟨x, n, hr, he⟩ := powerLoop_spec (powerStep p norm xsTotal scatter fission) conv (fun _ => True)
    (fun s _ => by
      obtain ⟨f, _, h⟩ := powerStep_ok p norm xsTotal scatter fission hok s
      exact ⟨_, h, trivial⟩) 99 0 (start norm random) trivial
  refine ⟨x, n, hr, ?_⟩
  unfold powerIteration
  rw [he, Nat.zero_add]

/-- The production is the specification's for both fission forms. -/
theorem updateKeff_eq (p : Problem K) (fission : Fission K) (hf : FissionNonneg p.groups fission)
    (flux old : ℕ → ℕ → K) (keff : K) :
    updateKeff p.cells p.groups p.mm fission flux old keff
      = keff * totalProduction p (fissionMatrix fission) flux
        / totalProduction p (fissionMatrix fission) old := by
  cases fission with
  | matrix xs =>
    show updateKeffMat _ _ _ _ _ _ _ = _
    unfold updateKeffMat
    rw [rateMat_eq _ _ _ _ _ hf, rateMat_eq _ _ _ _ _ hf, mul_comm _ keff]
    rfl
  | vector chi nu =>
    show updateKeffVec _ _ _ _ _ _ _ _ = _
    unfold updateKeffVec
    rw [rateVec_eq _ _ _ _ _ _ hf, rateVec_eq _ _ _ _ _ _ hf, mul_comm _ keff]
    rfl

theorem fissionSource_val (p : Problem K) (fission : Fission K) (hf : FissionNonneg p.groups fission)
    (flux : ℕ → ℕ → K) (keff : K) (i n g : ℕ) (hg : g < p.groups) :
    (fissionSource p.groups p.mm fission flux keff).val i
        (bidx (fissionSource p.groups p.mm fission flux keff).angles n)
        (bidx (fissionSource p.groups p.mm fission flux keff).groups g)
      = (∑ g' ∈ range p.groups, fissionMatrix fission (p.mm i) g g' * flux i g') / keff := by
  cases fission with
  | matrix xs =>
    simp only [fissionSource, bidx_full _ _ hg]
    exact C25_matrix_source p.groups flux xs p.mm keff i g hg (hf (p.mm i))
  | vector chi nu =>
    simp only [fissionSource, bidx_full _ _ hg]
    rw [C25_vector_source p.groups flux chi nu p.mm keff i g hg (hf (p.mm i)), mul_sum]
    congr 1
    exact sum_congr rfl fun _ _ => by simp [fissionMatrix]; ring

theorem totalProduction_congr (p : Problem K) (F : ℕ → ℕ → ℕ → K) (a b : ℕ → ℕ → K)
    (h : ∀ i < p.cells, ∀ g < p.groups, a i g = b i g) : totalProduction p F a = totalProduction p F b :=
  sum_congr rfl fun i hi => sum_congr rfl fun g _ => sum_congr rfl fun g' hg' => by
    rw [h i (mem_range.mp hi) g' (mem_range.mp hg')]

theorem totalProduction_smul (p : Problem K) (F : ℕ → ℕ → ℕ → K) (c : K) (a : ℕ → ℕ → K) :
    totalProduction p F (fun i g => c * a i g) = c * totalProduction p F a :=
  production_smul p.cells p.groups a F p.mm c

/-- If normalising `flux` gives `phi` and the `keff` update leaves a nonzero `keff` alone, `flux` was already
normalised: it equals `phi`. -/
theorem normalised_fixed {p : Problem K} {norm : (ℕ → ℕ → K) → K} {F : ℕ → ℕ → ℕ → K} {flux phi : ℕ → ℕ → K}
    {keff : K} (hprod : totalProduction p F phi ≠ 0) (hk : keff ≠ 0)
    (hflux : ∀ i < p.cells, ∀ g < p.groups, normalise norm flux i g = phi i g)
    (hkeff : keff * totalProduction p F flux / totalProduction p F phi = keff) :
    ∀ i < p.cells, ∀ g < p.groups, flux i g = phi i g := by
  have hne : norm flux ≠ 0 := by
    intro h0
    refine hprod ?_
    rw [totalProduction_congr p F phi (fun _ _ => 0 * (0 : K)) (fun i hi g hg => by
      rw [← hflux i hi g hg]; simp [normalise, h0])]
    rw [totalProduction_smul p F 0 fun _ _ => 0, zero_mul]
  have hsc : ∀ i < p.cells, ∀ g < p.groups, flux i g = norm flux * phi i g := by
    intro i hi g hg
    rw [← hflux i hi g hg]
    unfold normalise
    field_simp
  rw [totalProduction_congr p F flux _ hsc, totalProduction_smul] at hkeff
  have h1 : norm flux = 1 := by
    rw [mul_div_assoc, mul_div_assoc, div_self hprod, mul_one] at hkeff
    exact mul_left_cancel₀ hk (by rw [hkeff, mul_one])
  intro i hi g hg
  rw [hsc i hi g hg, h1, one_mul]

/-- C27: if one more pass of the power iteration leaves the flux and `keff` unchanged (and there is some
fission production), they solve the k-eigenvalue transport equation.  `Contractive` with `c < 1` says the
scattering alone is subcritical on a fine enough mesh; the guess `phi` of the inner source iteration is then
reproduced only by a solution. -/
theorem C27_fixed_point_is_eigenpair (p : Problem K) (norm : (ℕ → ℕ → K) → K) (xsTotal : ℕ → ℕ → K)
    (xs : ℕ → ℕ → ℕ → K) (fission : Fission K) (c : K) (hc : 0 ≤ c) (hc1 : c < 1)
    (hcon : Contractive p xsTotal xs c) (hf : FissionNonneg p.groups fission) (s s' : KState K)
    (hstep : powerStep p norm xsTotal (.iso xs) fission s = .ok s')
    (hflux : ∀ i < p.cells, ∀ g < p.groups, s'.flux i g = s.flux i g) (hkeff : s'.keff = s.keff)
    (hk : s.keff ≠ 0) (hprod : totalProduction p (fissionMatrix fission) s.flux ≠ 0) :
    ∃ psi, KEigenpair p xsTotal xs (fissionMatrix fission) s.flux s.keff psi := by
  obtain ⟨flux, h1, h2⟩ := powerStep_ok p norm xsTotal (.iso xs) fission hcon.ok s
  rw [hstep] at h2
  have h2 : s' = _ := Except.ok.inj h2
  subst h2
  simp only at hflux hkeff
  rw [updateKeff_eq p fission hf] at hkeff
  have hfix := normalised_fixed hprod hk hflux hkeff
  obtain ⟨e, he⟩ := C22_call_fixed_point_solves p xsTotal xs _ _ c hc hc1 hcon s.flux flux h1 hfix
  refine ⟨e, he.scalar, fun g hg n hn i hi => ?_, fun g hg => ?_⟩
  · have := he.balance g hg n hn i hi
    simp only at this
    rw [fissionSource_val p fission hf _ _ _ _ _ hg] at this
    exact this
  · have := he.inflow g hg
    simpa [zeroBoundary] using this

/-- C27 (converse): a normalised eigenpair is a fixed point of the power iteration, so the hypotheses above
describe exactly the eigenpairs. -/
theorem C27_eigenpair_is_fixed_point (p : Problem K) (norm : (ℕ → ℕ → K) → K) (xsTotal : ℕ → ℕ → K)
    (xs : ℕ → ℕ → ℕ → K) (fission : Fission K) (hok : ∀ g < p.groups, SlabOk p xsTotal g)
    (hf : FissionNonneg p.groups fission) (s : KState K) (psi : ℕ → ℕ → ℕ → K)
    (hnorm : ∀ f, (∀ i < p.cells, ∀ g < p.groups, f i g = s.flux i g) → norm f = 1)
    (hprod : totalProduction p (fissionMatrix fission) s.flux ≠ 0)
    (h : KEigenpair p xsTotal xs (fissionMatrix fission) s.flux s.keff psi) :
    ∃ s', powerStep p norm xsTotal (.iso xs) fission s = .ok s' ∧
      (∀ i < p.cells, ∀ g < p.groups, s'.flux i g = s.flux i g) ∧ s'.keff = s.keff := by
  have hsol : SolvesMultigroup p xsTotal xs (fissionSource p.groups p.mm fission s.flux s.keff) zeroBoundary
      s.flux psi := by
    refine ⟨h.scalar, fun g hg n hn i hi => ?_, fun g hg => by simpa [zeroBoundary] using h.inflow g hg⟩
    rw [h.balance g hg n hn i hi]
    simp only
    rw [fissionSource_val p fission hf _ _ _ _ _ hg]
  obtain ⟨flux, h1, h2⟩ := sourceIteration_steady p xsTotal xs _ _ hok s.flux psi hsol s.flux
    (fun _ _ _ _ => rfl)
  refine ⟨_, by unfold powerStep; rw [h1], fun i hi g hg => ?_, ?_⟩
  · simp only [normalise, hnorm flux h2, div_one]; exact h2 i hi g hg
  · simp only
    rw [updateKeff_eq p fission hf, totalProduction_congr p _ flux s.flux h2, mul_div_assoc, div_self hprod,
      mul_one]

/-! ### Hybrid power iteration -/

theorem hybridLoop_spec (step : HybK K → Except PyErr (HybK K)) (conv : (ℕ → ℕ → K) → (ℕ → ℕ → K) → Bool)
    (hstep : ∀ s, ∃ s', step s = .ok s') :
    ∀ left count s, ∃ x n, Run step (fun a b => conv a.flux b.flux) (left + 1) s x n ∧
      hybridLoop step conv left count s = .ok (x n, count + n) := by
  intro left
  induction left with
  | zero =>
    intro count s
    obtain ⟨s', h1⟩ := hstep s
    refine ⟨_, 1, Run.one h1 (fun h => absurd h (lt_irrefl 0)), ?_⟩
    simp [hybridLoop, h1]
  | succ left ih =>
    intro count s
    obtain ⟨s', h1⟩ := hstep s
    by_cases hc : conv s'.flux s.flux = true
    · refine ⟨_, 1, Run.one h1 (fun _ => hc), ?_⟩
      simp [hybridLoop, h1, hc]
    · obtain ⟨x, n, hr, he⟩ := ih (count + 1) s'
      refine ⟨_, n + 1, Run.cons h1 (by simpa using hc) hr, ?_⟩
      simp only [hybridLoop, h1, hc, if_false, he, if_neg (show n + 1 ≠ 0 by omega), Nat.add_sub_cancel]
      simp only [Bool.false_eq_true, if_false]
      congr 2; omega

theorem hybridStep_ok (pU pC : Problem K) (norm : (ℕ → ℕ → K) → K) (xsTotal xsTotalC : ℕ → ℕ → K)
    (xs xsC fission : ℕ → ℕ → ℕ → K) (coarse : ℕ → ℕ) (factor : ℕ → K)
    (hU : ∀ g < pU.groups, SlabOk pU xsTotal g) (hUG : 0 < pU.groups) (hC : ∀ g < pC.groups, SlabOk pC xsTotalC g)
    (s : HybK K) : ∃ u fluxC,
      knownSourceScalar pU xsTotal (fissionSource pU.groups pU.mm (.matrix fission) s.flux s.keff)
        zeroBoundary false = .ok u ∧
      sourceIteration pC xsTotalC (.iso xsC)
        ⟨1, pC.groups, fun i _ c => hybridSourceCollided pU.groups u xs pU.mm coarse i c⟩ zeroBoundary s.fluxC
        = .ok fluxC ∧
      Critical.hybridStep pU pC norm xsTotal xsTotalC xs xsC fission coarse factor s
        = .ok ⟨normalise norm fun i g => u i g + fluxC i (coarse g) * factor g, fluxC,
            updateKeffMat pU.cells pU.groups (fun i g => u i g + fluxC i (coarse g) * factor g) s.flux fission
              pU.mm s.keff⟩ := by
  obtain ⟨psi, hpsi⟩ := C08_known_source_exists pU xsTotal
    (fissionSource pU.groups pU.mm (.matrix fission) s.flux s.keff) zeroBoundary 0 (hU 0 hUG)
  obtain ⟨⟨u, hu, _⟩, _⟩ := C08_known_source pU xsTotal _ zeroBoundary 0 (hU 0 hUG) psi hpsi
  obtain ⟨x, n, _, _, _, _, h, _⟩ := C21_source_iteration_stops pC xsTotalC xsC
    ⟨1, pC.groups, fun i _ c => hybridSourceCollided pU.groups u xs pU.mm coarse i c⟩ zeroBoundary s.fluxC hC
  refine ⟨u, x n, hu, h, ?_⟩
  unfold Critical.hybridStep
  rw [hu]
  simp only [h]

/-- C27: `hybrid_power_iteration` on a slab performs between 1 and 100 passes and returns the last. -/
theorem C27_hybrid_stops (pU pC : Problem K) (norm : (ℕ → ℕ → K) → K)
    (conv : (ℕ → ℕ → K) → (ℕ → ℕ → K) → Bool) (xsTotal xsTotalC : ℕ → ℕ → K)
    (xs xsC fission : ℕ → ℕ → ℕ → K) (coarse : ℕ → ℕ) (factor : ℕ → K) (random : ℕ → ℕ → K)
    (hU : ∀ g < pU.groups, SlabOk pU xsTotal g) (hUG : 0 < pU.groups)
    (hC : ∀ g < pC.groups, SlabOk pC xsTotalC g) :
    ∃ x n, Run (Critical.hybridStep pU pC norm xsTotal xsTotalC xs xsC fission coarse factor)
        (fun a b => conv a.flux b.flux) 100 ⟨(start norm random).flux, fun _ _ => 0, (start norm random).keff⟩ x n ∧
      hybridPowerIteration pU pC norm conv xsTotal xsTotalC xs xsC fission coarse factor random
        = .ok (x n, n) := by
  obtain ⟨x, n, hr, he⟩ := hybridLoop_spec
    (Critical.hybridStep pU pC norm xsTotal xsTotalC xs xsC fission coarse factor) conv (fun s => by
      obtain ⟨_, _, _, _, h⟩ := hybridStep_ok pU pC norm xsTotal xsTotalC xs xsC fission coarse factor hU hUG hC s
      exact ⟨_, h⟩) 99 0 ⟨(start norm random).flux, fun _ _ => 0, (start norm random).keff⟩
  refine ⟨x, n, hr, ?_⟩
  unfold hybridPowerIteration
  rw [he, Nat.zero_add]

/-- C27: with equal fine and collided grids a fixed point of the hybrid power iteration is an eigenpair of the
same transport operator as for `power_iteration`. -/
theorem C27_hybrid_fixed_point_is_eigenpair (p : Problem K) (norm : (ℕ → ℕ → K) → K) (xsTotal : ℕ → ℕ → K)
    (xs fission : ℕ → ℕ → ℕ → K) (c : K) (hc : 0 ≤ c) (hc1 : c < 1) (hG : 0 < p.groups)
    (hcon : Contractive p xsTotal xs c) (hf : FissionNonneg p.groups (.matrix fission)) (s s' : HybK K)
    (hstep : Critical.hybridStep p p norm xsTotal xsTotal xs xs fission (fun g => g) (fun _ => 1) s = .ok s')
    (hflux : ∀ i < p.cells, ∀ g < p.groups, s'.flux i g = s.flux i g)
    (hfluxC : ∀ i < p.cells, ∀ g < p.groups, s'.fluxC i g = s.fluxC i g) (hkeff : s'.keff = s.keff)
    (hk : s.keff ≠ 0) (hprod : totalProduction p fission s.flux ≠ 0) :
    ∃ psi, KEigenpair p xsTotal xs fission s.flux s.keff psi := by
  obtain ⟨u, fluxC, h1, h2, h3⟩ := hybridStep_ok p p norm xsTotal xsTotal xs xs fission (fun g => g) (fun _ => 1)
    hcon.ok hG hcon.ok s
  rw [hstep] at h3
  have h3 : s' = _ := Except.ok.inj h3
  subst h3
  simp only [mul_one] at hflux hkeff hfluxC
  have hkeff' : s.keff * totalProduction p (fissionMatrix (.matrix fission)) (fun i g => u i g + fluxC i g)
      / totalProduction p (fissionMatrix (.matrix fission)) s.flux = s.keff := by
    rw [← updateKeff_eq p (.matrix fission) hf]; exact hkeff
  have hfix := normalised_fixed (F := fissionMatrix (.matrix fission)) hprod hk hflux hkeff'
  obtain ⟨eC, heC⟩ := C22_call_fixed_point_solves p xsTotal xs _ _ c hc hc1 hcon s.fluxC fluxC h2 hfluxC
  -- the uncollided part
  have hU := fun g (hg : g < p.groups) => C08_known_source_exists p xsTotal
    (fissionSource p.groups p.mm (.matrix fission) s.flux s.keff) zeroBoundary g (hcon.ok g hg)
  choose eU heU using hU
  have hu : ∀ g (hg : g < p.groups), ∀ i < p.cells, u i g = scalarCenter p.angles p.angleW (eU g hg) i := by
    intro g hg i hi
    obtain ⟨⟨u', hu', hu''⟩, _⟩ := C08_known_source p xsTotal _ zeroBoundary g (hcon.ok g hg) _ (heU g hg)
    rw [h1] at hu'
    have : u = u' := Except.ok.inj hu'
    subst this
    exact hu'' i hi
  have hval : ∀ i < p.cells, ∀ g < p.groups, s.flux i g = u i g + s.fluxC i g := by
    intro i hi g hg
    rw [← hfix i hi g hg, hfluxC i hi g hg]
  refine ⟨fun g => if hg : g < p.groups then fun n i => eU g hg n i + eC g n i else fun _ _ => 0,
    fun g hg i hi => ?_, fun g hg n hn i hi => ?_, fun g hg => ?_⟩
  · simp only [hg, dif_pos]
    rw [hval i hi g hg, hu g hg i hi, heC.scalar g hg i hi]
    unfold scalarCenter
    rw [← sum_add_distrib]
    exact sum_congr rfl fun n _ => by ring
  · simp only [hg, dif_pos]
    have a := (heU g hg).1 n hn i hi
    have b := heC.balance g hg n hn i hi
    simp only at a b
    rw [fissionSource_val p (.matrix fission) hf _ _ _ _ _ hg] at a
    rw [bidx_full _ _ hg, C38_group] at b
    rw [sum_filter] at b
    have e1 : (∑ g' ∈ range p.groups, if g' = g then
        ∑ g'' ∈ range p.groups, xs (p.mm i) g' g'' * u i g'' else 0)
        = ∑ g'' ∈ range p.groups, xs (p.mm i) g g'' * u i g'' := by
      rw [sum_ite_eq' (range p.groups) g, if_pos (mem_range.mpr hg)]
    have e2 : ∑ g' ∈ range p.groups, xs (p.mm i) g g' * s.flux i g'
        = ∑ g' ∈ range p.groups, xs (p.mm i) g g' * s.fluxC i g'
          + ∑ g' ∈ range p.groups, xs (p.mm i) g g' * u i g' := by
      rw [← sum_add_distrib]
      exact sum_congr rfl fun g' hg' => by rw [hval i hi g' (mem_range.mp hg')]; ring
    rw [e1] at b
    rw [e2]
    simp only [fissionMatrix] at a
    linear_combination a + b
  · simp only [hg, dif_pos]
    have := sweptInflow_add (heU g hg).2 (heC.inflow g hg)
    simpa [zeroBoundary] using this

/-! ## C28 -/

theorem pyIndex_nonneg (n : ℕ) (i : ℤ) (h : 0 ≤ i) : pyIndex n i = i.toNat := by
  unfold pyIndex; rw [if_neg (by omega)]

/-- The loop of `collect_power_iteration` from a state with `count >= 1` passes done. -/
theorem critCollect_spec (step : KState K → Except PyErr (KState K × ℕ × (ℕ → ℕ → ℕ → K)))
    (conv : (ℕ → ℕ → K) → (ℕ → ℕ → K) → Bool) (hstep : ∀ s, ∃ r, step s = .ok r) :
    ∀ left count s tracked, 1 ≤ count → ∃ x n,
      Run (fun s => (step s).map (·.1)) (fun a b => conv a.flux b.flux) (left + 1) s x n ∧
      ∃ tr, Critical.collectLoop step conv left count s tracked = .ok ⟨x n, count + n - 1, tr⟩ ∧
        ∀ r, tr r = if count - 1 ≤ r ∧ r < count - 1 + n then (x (r + 2 - count)).flux else tracked r := by
  intro left
  induction left with
  | zero =>
    intro count s tracked hc
    obtain ⟨⟨s', a, b⟩, h1⟩ := hstep s
    refine ⟨_, 1, Run.one (s' := s') (by simp [h1, Except.map]) (fun h => absurd h (lt_irrefl 0)),
      Function.update tracked (count - 1) s'.flux, ?_, fun r => ?_⟩
    · unfold Critical.collectLoop
      simp only [h1]
      rw [pyIndex_nonneg _ _ (by omega), show ((count : ℤ) + 1 - 2).toNat = count - 1 by omega]
      by_cases hcv : conv s'.flux s.flux = true <;> simp [hcv]
    · by_cases hr : r = count - 1
      · subst hr
        rw [Function.update_self, if_pos ⟨le_refl _, by omega⟩, if_neg (by omega)]
      · rw [Function.update_of_ne hr, if_neg (by omega)]
  | succ left ih =>
    intro count s tracked hc
    obtain ⟨⟨s', a, b⟩, h1⟩ := hstep s
    by_cases hcv : conv s'.flux s.flux = true
    · refine ⟨_, 1, Run.one (s' := s') (by simp [h1, Except.map]) (fun _ => hcv),
        Function.update tracked (count - 1) s'.flux, ?_, fun r => ?_⟩
      · unfold Critical.collectLoop
        simp only [h1]
        rw [pyIndex_nonneg _ _ (by omega), show ((count : ℤ) + 1 - 2).toNat = count - 1 by omega]
        simp [hcv]
      · by_cases hr : r = count - 1
        · subst hr
          rw [Function.update_self, if_pos ⟨le_refl _, by omega⟩, if_neg (by omega)]
        · rw [Function.update_of_ne hr, if_neg (by omega)]
    · obtain ⟨x, n, hr, tr, he, htr⟩ := ih (count + 1) s' (Function.update tracked (count - 1) s'.flux) (by omega)
      refine ⟨_, n + 1, Run.cons (s' := s') (by simp [h1, Except.map]) (by simpa using hcv) hr, tr, ?_,
        fun r => ?_⟩
      · unfold Critical.collectLoop
        simp only [h1]
        rw [pyIndex_nonneg _ _ (by omega), show ((count : ℤ) + 1 - 2).toNat = count - 1 by omega]
        simp only [hcv, Bool.false_eq_true, if_false, if_neg (show n + 1 ≠ 0 by omega), Nat.add_sub_cancel]
        rw [he]
        congr 2; omega
      · rw [htr r]
        by_cases h2 : r = count - 1
        · subst h2
          rw [if_neg (by omega), Function.update_self, if_pos ⟨le_refl _, by omega⟩,
            if_neg (by omega), show count - 1 + 2 - count - 1 = 0 by omega, hr.start]
        · by_cases h3 : count + 1 - 1 ≤ r ∧ r < count + 1 - 1 + n
          · rw [if_pos h3, if_pos (by omega), if_neg (by omega)]
            congr 2
          · rw [if_neg h3, Function.update_of_ne h2, if_neg (by omega)]

/-- One pass of `collect_power_iteration` is one pass of `power_iteration`. -/
theorem collectStep_eq (p : Problem K) (norm : (ℕ → ℕ → K) → K) (xsTotal : ℕ → ℕ → K) (xs : ℕ → ℕ → ℕ → K)
    (fission : Fission K) (hok : ∀ g < p.groups, SlabOk p xsTotal g) (s : KState K) :
    ∃ r, collectStep p norm xsTotal xs fission s = .ok r ∧
      powerStep p norm xsTotal (.iso xs) fission s = .ok r.1 := by
  obtain ⟨f, h1, h2⟩ := powerStep_ok p norm xsTotal (.iso xs) fission hok s
  obtain ⟨len, saved, h3, _⟩ := (C29_collect p xsTotal xs (fissionSource p.groups p.mm fission s.flux s.keff)
    zeroBoundary s.flux).2 f h1
  refine ⟨_, by unfold collectStep; rw [h3], h2⟩

/-- C28 (what the code does): `collect_power_iteration` performs `n` passes of `power_iteration` with
`1 <= n <= 101` (the counter is increased after the test), returns the pair after the last, and the saved file
has exactly `n - 1` rows: row `r` is the normalised flux of pass `r + 2`. -/
theorem C28_saved_rows_partial (p : Problem K) (norm : (ℕ → ℕ → K) → K)
    (conv : (ℕ → ℕ → K) → (ℕ → ℕ → K) → Bool) (xsTotal : ℕ → ℕ → K) (xs : ℕ → ℕ → ℕ → K)
    (fission : Fission K) (random : ℕ → ℕ → K) (hok : ∀ g < p.groups, SlabOk p xsTotal g) :
    ∃ x n out, Run (powerStep p norm xsTotal (.iso xs) fission)
        (fun a b => conv a.flux b.flux) 101 (start norm random) x n ∧
      collectPowerIteration p norm conv xsTotal xs fission random = .ok out ∧
      out.result = x n ∧ out.rows = n - 1 ∧ ∀ r < out.rows, out.saved r = (x (r + 2)).flux := by
  have hstep : ∀ s, ∃ r, collectStep p norm xsTotal xs fission s = .ok r := fun s => by
    obtain ⟨r, h, _⟩ := collectStep_eq p norm xsTotal xs fission hok s
    exact ⟨r, h⟩
  have hfun : (fun s => (collectStep p norm xsTotal xs fission s).map (·.1))
      = powerStep p norm xsTotal (.iso xs) fission := by
    funext s
    obtain ⟨r, h, h'⟩ := collectStep_eq p norm xsTotal xs fission hok s
    rw [h, h']; rfl
  obtain ⟨⟨s', a, b⟩, h1⟩ := hstep (start norm random)
  have h1' : powerStep p norm xsTotal (.iso xs) fission (start norm random) = .ok s' := by
    rw [← hfun]; simp [h1, Except.map]
  unfold collectPowerIteration Critical.collectLoop
  simp only [h1]
  rw [show pyIndex 100 (((0 : ℕ) : ℤ) + 1 - 2) = 99 by decide]
  by_cases hcv : conv s'.flux (start norm random).flux = true
  · refine ⟨_, 1, _, Run.one (limit := 100) (s' := s') h1' (fun _ => hcv),
      by rw [if_pos hcv], rfl, rfl, ?_⟩
    intro r hr
    exact absurd hr (by simp)
  · obtain ⟨x, n, hr, tr, he, htr⟩ := critCollect_spec (collectStep p norm xsTotal xs fission) conv hstep 99 1 s'
      (Function.update (fun _ _ _ => 0) 99 s'.flux) (le_refl _)
    rw [hfun] at hr
    refine ⟨_, n + 1, _, Run.cons (s' := s') h1' (by simpa using hcv) hr,
      by rw [if_neg hcv]; exact he, ?_, ?_, ?_⟩
    · simp
    · simp
    · intro r hr
      simp only at hr ⊢
      rw [htr r, if_pos (by omega), if_neg (by omega)]

/-- C28 is violated for every input: the file never has one row per pass, and a run that converges in its
first pass saves no flux at all. -/
theorem C28_violation (p : Problem K) (norm : (ℕ → ℕ → K) → K)
    (conv : (ℕ → ℕ → K) → (ℕ → ℕ → K) → Bool) (xsTotal : ℕ → ℕ → K) (xs : ℕ → ℕ → ℕ → K)
    (fission : Fission K) (random : ℕ → ℕ → K) (hok : ∀ g < p.groups, SlabOk p xsTotal g) :
    ∃ x n out, Run (powerStep p norm xsTotal (.iso xs) fission)
        (fun a b => conv a.flux b.flux) 101 (start norm random) x n ∧
      collectPowerIteration p norm conv xsTotal xs fission random = .ok out ∧
      ¬ (out.rows = n ∧ ∀ r < n, out.saved r = (x (r + 1)).flux) ∧
      (conv (x 1).flux (x 0).flux = true → out.rows = 0) := by
  obtain ⟨x, n, out, hr, h1, _, h3, _⟩ := C28_saved_rows_partial p norm conv xsTotal xs fission random hok
  refine ⟨x, n, out, hr, h1, fun h => ?_, fun h => ?_⟩
  · have := hr.pos; have := h.1; omega
  · by_contra hne
    have hb := hr.notBefore 1 (le_refl _) (by omega)
    rw [h] at hb
    exact absurd hb (by simp)

/-! ## C54 -/

/-- C54: without models `ml_power_iteration` is `power_iteration` (for every `flux_old`: it is ignored). -/
theorem C54_no_models {C : Type*} (p : Problem K) (norm : (ℕ → ℕ → K) → K)
    (conv convMl : (ℕ → ℕ → K) → (ℕ → ℕ → K) → Bool)
    (change : (ℕ → ℕ → K) → (ℕ → ℕ → K) → C) (gt : C → C → Bool) (small : C → Bool) (hundred : C)
    (xsTotal : ℕ → ℕ → K) (scatter : ℕ → ℕ → ℕ → K) (fission : Fission K)
    (fm sm : ℕ → Option (Ml.Predict K)) (label : Ml.Label) (fluxOld random : ℕ → ℕ → K) :
    mlPowerIteration p norm conv convMl change gt small hundred xsTotal scatter fission 0 fm 0 sm label fluxOld
        random
      = powerIteration p norm conv xsTotal (.iso scatter) fission random := by
  simp [mlPowerIteration]

/-- The loop of `ml_power_iteration`. -/
theorem mlLoop_spec {C : Type*} (step : KState K → Except PyErr (KState K))
    (change : (ℕ → ℕ → K) → (ℕ → ℕ → K) → C) (gt : C → C → Bool) (small : C → Bool) :
    ∀ left count changeOld s result total,
      mlLoop step change gt small left count changeOld s = .ok (result, total) →
      ∃ (x : ℕ → KState K) (n : ℕ), x 0 = s ∧ 1 ≤ n ∧ n ≤ left + 1 ∧ total = count + n ∧
        (∀ j < n, step (x j) = .ok (x (j + 1))) ∧
        (∀ j, 1 ≤ j → j < n → small (change (x j).flux (x (j - 1)).flux) = false) ∧
        (result = x n ∧ (small (change (x n).flux (x (n - 1)).flux) = true ∨ n = left + 1) ∨
          result = x (n - 1) ∧ 20 ≤ total ∧ gt (change (x n).flux (x (n - 1)).flux)
            (if n = 1 then changeOld else change (x (n - 1)).flux (x (n - 2)).flux) = true) := by
  intro left
  induction left with
  | zero =>
    intro count changeOld s result total h
    unfold mlLoop at h
    cases hs : step s with
    | error e => rw [hs] at h; cases h
    | ok s' =>
      rw [hs] at h
      simp only at h
      refine ⟨fun j => if j = 0 then s else s', 1, rfl, le_refl _, le_refl _, ?_⟩
      have hst : ∀ j < 1, step (if j = 0 then s else s') = .ok (if j + 1 = 0 then s else s') := by
        intro j hj
        have : j = 0 := by omega
        subst this; simpa using hs
      split at h
      · obtain ⟨rfl, rfl⟩ := Prod.mk.inj (Except.ok.inj h)
        rename_i hcond
        exact ⟨rfl, hst, fun j _ _ => by omega, Or.inr ⟨rfl, hcond.2, by simpa using hcond.1⟩⟩
      · split at h
        · obtain ⟨rfl, rfl⟩ := Prod.mk.inj (Except.ok.inj h)
          rename_i hsm
          exact ⟨rfl, hst, fun j _ _ => by omega, Or.inl ⟨rfl, Or.inr rfl⟩⟩
        · obtain ⟨rfl, rfl⟩ := Prod.mk.inj (Except.ok.inj h)
          exact ⟨rfl, hst, fun j _ _ => by omega, Or.inl ⟨rfl, Or.inr rfl⟩⟩
  | succ left ih =>
    intro count changeOld s result total h
    unfold mlLoop at h
    cases hs : step s with
    | error e => rw [hs] at h; cases h
    | ok s' =>
      rw [hs] at h
      simp only at h
      have hst : ∀ j < 1, step (if j = 0 then s else s') = .ok (if j + 1 = 0 then s else s') := by
        intro j hj
        have : j = 0 := by omega
        subst this; simpa using hs
      split at h
      · obtain ⟨rfl, rfl⟩ := Prod.mk.inj (Except.ok.inj h)
        rename_i hcond
        exact ⟨fun j => if j = 0 then s else s', 1, rfl, le_refl _, by omega, rfl, hst, fun j _ _ => by omega,
          Or.inr ⟨rfl, hcond.2, by simpa using hcond.1⟩⟩
      · split at h
        · obtain ⟨rfl, rfl⟩ := Prod.mk.inj (Except.ok.inj h)
          rename_i hsm
          exact ⟨fun j => if j = 0 then s else s', 1, rfl, le_refl _, by omega, rfl, hst, fun j _ _ => by omega,
            Or.inl ⟨rfl, Or.inl (by simpa using hsm)⟩⟩
        · rename_i hsm
          obtain ⟨x, n, h0, h1, h2, h3, h4, h5, h6⟩ := ih (count + 1) _ s' result total h
          refine ⟨fun j => if j = 0 then s else x (j - 1), n + 1, rfl, by omega, by omega, by omega, ?_, ?_, ?_⟩
          · intro j hj
            rcases j with _ | j
            · simp [hs, h0]
            · simpa using h4 j (by omega)
          · intro j hj hn
            rcases j with _ | _ | j
            · omega
            · simp [h0]; simpa using hsm
            · simpa using h5 (j + 1) (by omega) (by omega)
          · rcases h6 with ⟨h7, h8⟩ | ⟨h7, h8, h9⟩
            · refine Or.inl ⟨by simpa using h7, ?_⟩
              simp only [if_neg (show n + 1 ≠ 0 by omega), Nat.add_sub_cancel, if_neg (show n ≠ 0 by omega)]
              rcases h8 with h8 | h8
              · exact Or.inl h8
              · exact Or.inr (by omega)
            · refine Or.inr ⟨by simp only [Nat.add_sub_cancel, if_neg (show n ≠ 0 by omega)]; exact h7, h8, ?_⟩
              simp only [if_neg (show n + 1 ≠ 0 by omega), Nat.add_sub_cancel, if_neg (show n ≠ 0 by omega)]
              rw [if_neg (show n + 1 ≠ 1 by omega)]
              by_cases hn1 : n = 1
              · subst hn1
                simp only [if_true] at h9
                simpa [h0] using h9
              · rw [if_neg hn1] at h9
                rw [if_neg (show n + 1 - 2 ≠ 0 by omega)]
                rw [show n + 1 - 2 - 1 = n - 2 by omega]
                exact h9

theorem mlLoop_one {C : Type*} (step : KState K → Except PyErr (KState K))
    (change : (ℕ → ℕ → K) → (ℕ → ℕ → K) → C) (gt : C → C → Bool) (small : C → Bool) (left : ℕ) (old : C)
    (s s' : KState K) (h : step s = .ok s') (hs : ∀ c, small c = true) :
    mlLoop step change gt small left 0 old s = .ok (s', 1) := by
  unfold mlLoop
  rw [h]
  simp [hs]

/-- Without scatter models a pass with fission models always completes on a slab. -/
theorem mlStep_ok (p : Problem K) (norm : (ℕ → ℕ → K) → K) (convMl : (ℕ → ℕ → K) → (ℕ → ℕ → K) → Bool)
    (xsTotal : ℕ → ℕ → K) (scatter fission : ℕ → ℕ → ℕ → K) (nF : ℕ) (fm sm : ℕ → Option (Ml.Predict K))
    (label : Ml.Label) (hok : ∀ g < p.groups, SlabOk p xsTotal g) (s : KState K) :
    ∃ s', mlStep p norm convMl xsTotal scatter (.matrix fission) nF fm 0 sm label s = .ok s' := by
  unfold mlStep
  by_cases hn : nF = 0
  · obtain ⟨x, k, _, _, _, _, h, _⟩ := C21_source_iteration_stops p xsTotal scatter
      (fissionSource p.groups p.mm (.matrix fission) s.flux s.keff) zeroBoundary s.flux hok
    simp only [hn, if_true, h]
    exact ⟨_, rfl⟩
  · obtain ⟨x, k, _, _, _, _, h, _⟩ := C21_source_iteration_stops p xsTotal scatter
      ⟨1, p.groups, fun i _ g => Ml.fissionProdPredict p.cells p.groups nF s.flux fission p.mm 1 fm i g⟩
      zeroBoundary s.flux hok
    simp only [hn, if_false, if_true, h]
    exact ⟨_, rfl⟩

/-- C54: with some model, `ml_power_iteration` returns (if no step raises) after `n` passes, `1 <= n <= 50`,
either the pair of the last pass - because the change was small or the limit was reached - or, only from pass
20 on and only if the change grew, the complete pair of the pass before. -/
theorem C54_models {C : Type*} (p : Problem K) (norm : (ℕ → ℕ → K) → K)
    (conv convMl : (ℕ → ℕ → K) → (ℕ → ℕ → K) → Bool)
    (change : (ℕ → ℕ → K) → (ℕ → ℕ → K) → C) (gt : C → C → Bool) (small : C → Bool) (hundred : C)
    (xsTotal : ℕ → ℕ → K) (scatter : ℕ → ℕ → ℕ → K) (fission : Fission K) (nF nS : ℕ)
    (fm sm : ℕ → Option (Ml.Predict K)) (label : Ml.Label) (fluxOld random : ℕ → ℕ → K) (hn : 0 < nF ∨ 0 < nS)
    (result : KState K) (total : ℕ)
    (h : mlPowerIteration p norm conv convMl change gt small hundred xsTotal scatter fission nF fm nS sm label
      fluxOld random = .ok (result, total)) :
    ∃ (x : ℕ → KState K), x 0 = ⟨fluxOld, 1⟩ ∧ 1 ≤ total ∧ total ≤ 50 ∧
      (∀ j < total, mlStep p norm convMl xsTotal scatter fission nF fm nS sm label (x j) = .ok (x (j + 1))) ∧
      (∀ j, 1 ≤ j → j < total → small (change (x j).flux (x (j - 1)).flux) = false) ∧
      (result = x total ∧ (small (change (x total).flux (x (total - 1)).flux) = true ∨ total = 50) ∨
        result = x (total - 1) ∧ 20 ≤ total ∧
          gt (change (x total).flux (x (total - 1)).flux) (change (x (total - 1)).flux (x (total - 2)).flux)
            = true) := by
  unfold mlPowerIteration at h
  rw [if_neg (by omega)] at h
  obtain ⟨x, n, h0, h1, h2, h3, h4, h5, h6⟩ := mlLoop_spec _ change gt small 49 0 hundred _ result total h
  have : total = n := by omega
  subst this
  refine ⟨x, h0, h1, by omega, h4, h5, ?_⟩
  rcases h6 with h6 | ⟨h7, h8, h9⟩
  · exact Or.inl ⟨h6.1, by simpa using h6.2⟩
  · rw [if_neg (by omega)] at h9
    exact Or.inr ⟨h7, h8, h9⟩

end Generic

/-! ### The Euclidean norm -/

/-- `np.linalg.norm` of a `(cells, groups)` array. -/
noncomputable def frobenius (N G : ℕ) (f : ℕ → ℕ → ℝ) : ℝ := √(∑ i ∈ range N, ∑ g ∈ range G, f i g ^ 2)

theorem frobenius_normalise (N G : ℕ) (f : ℕ → ℕ → ℝ) (h : ∃ i < N, ∃ g < G, f i g ≠ 0) :
    frobenius N G f ≠ 0 ∧ frobenius N G (normalise (frobenius N G) f) = 1 := by
  obtain ⟨i, hi, g, hg, hne⟩ := h
  have hpos : 0 < ∑ i ∈ range N, ∑ g ∈ range G, f i g ^ 2 := by
    refine sum_pos' (fun i _ => sum_nonneg fun g _ => sq_nonneg _) ⟨i, mem_range.mpr hi, ?_⟩
    exact sum_pos' (fun g _ => sq_nonneg _) ⟨g, mem_range.mpr hg, by positivity⟩
  have hs : frobenius N G f ≠ 0 := (Real.sqrt_pos.mpr hpos).ne'
  refine ⟨hs, ?_⟩
  have e : ∑ i ∈ range N, ∑ g ∈ range G, normalise (frobenius N G) f i g ^ 2 = 1 := by
    have e1 : ∀ i g, normalise (frobenius N G) f i g ^ 2 = f i g ^ 2 / ∑ i ∈ range N, ∑ g ∈ range G, f i g ^ 2 := by
      intro i g
      unfold normalise
      rw [div_pow, frobenius, Real.sq_sqrt hpos.le]
    simp only [e1]
    simp only [← sum_div]
    exact div_self hpos.ne'
  show √(∑ i ∈ range N, ∑ g ∈ range G, normalise (frobenius N G) f i g ^ 2) = 1
  rw [e, Real.sqrt_one]

/-- C27: the flux returned by `power_iteration` is a source-iteration result divided by its Euclidean norm, so
it has norm one unless that result vanishes identically. -/
theorem C27_unit_norm (p : Problem ℝ) (conv : (ℕ → ℕ → ℝ) → (ℕ → ℕ → ℝ) → Bool) (xsTotal : ℕ → ℕ → ℝ)
    (scatter : Scatter ℝ) (fission : Fission ℝ) (random : ℕ → ℕ → ℝ)
    (hok : ∀ g < p.groups, SlabOk p xsTotal g) :
    ∃ (flux : ℕ → ℕ → ℝ) (keff : ℝ) (n : ℕ) (prev : KState ℝ), powerIteration p (frobenius p.cells p.groups) conv xsTotal scatter fission random
        = .ok (⟨normalise (frobenius p.cells p.groups) flux, keff⟩, n) ∧
      sourceIteration p xsTotal scatter (fissionSource p.groups p.mm fission prev.flux prev.keff) zeroBoundary
        prev.flux = .ok flux ∧
      ((∃ i < p.cells, ∃ g < p.groups, flux i g ≠ 0) →
        frobenius p.cells p.groups (normalise (frobenius p.cells p.groups) flux) = 1) := by
  obtain ⟨x, n, hr, he⟩ := C27_power_iteration_stops p (frobenius p.cells p.groups) conv xsTotal scatter fission
    random hok
  obtain ⟨m, rfl⟩ : ∃ m, n = m + 1 := ⟨n - 1, by have := hr.pos; omega⟩
  obtain ⟨flux, h1, h2⟩ := powerStep_ok p (frobenius p.cells p.groups) xsTotal scatter fission hok (x m)
  rw [hr.steps m (by omega)] at h2
  have h2 := Except.ok.inj h2
  exact ⟨flux, _, m + 1, x m, by rw [he, h2], h1, fun h => (frobenius_normalise _ _ _ h).2⟩

/-! ### Examples -/

/-- One cell, two groups, two directions; `phi = 1` in both groups is an eigenvector with `k = 1`. -/
def exCrit : Problem ℚ where
  cells := 1
  groups := 2
  angles := 2
  mm := fun _ => 0
  dx := fun _ => 1
  angleX := fun n => if n = 0 then -1 else 1
  angleW := fun _ => 1 / 2
  bcL := false
  bcR := false
  geometry := 1
  pi := 3
  convIn := fun _ _ => false
  convOut := fun _ _ => false

theorem exCritContractive : Contractive exCrit (fun _ _ => 1) (fun _ _ _ => 1 / 4) (1 / 2) where
  ok := fun g _ => ⟨rfl, fun n _ => by simp only [exCrit]; split_ifs <;> norm_num,
    fun i _ => by simp [exCrit]⟩
  fine := fun g _ n _ i _ => by simp only [exCrit]; split_ifs <;> norm_num
  weights := fun n _ => by norm_num [exCrit]
  norm := by norm_num [exCrit]
  nonneg := fun _ _ _ _ _ _ => by norm_num
  rows := fun _ _ _ _ => by norm_num [exCrit]

theorem exCritPair : KEigenpair exCrit (fun _ _ => 1) (fun _ _ _ => 1 / 4) (fun _ _ _ => 5 / 4)
    (fun _ _ => 1) 1 (fun _ n i => if n = 0 then (if i = 0 then 2 else 0) else if i = 0 then 0 else 2) where
  scalar := fun g _ i hi => by
    have : i = 0 := by simpa [exCrit] using hi
    subst this
    norm_num [exCrit, sum_range_succ]
  balance := fun g _ n hn i hi => by
    have : i = 0 := by simpa [exCrit] using hi
    subst this
    have hn : n < 2 := hn
    simp only [exCrit, sum_const, card_range]
    split_ifs <;> first | contradiction | norm_num
  inflow := fun g _ n hn => by
    have hn : n < 2 := hn
    have h : n = 0 ∨ n = 1 := by omega
    rcases h with rfl | rfl <;> norm_num [inflow, exCrit, leavesReflecting]

-- a step of the power iteration that changes nothing (hypotheses of `C27_fixed_point_is_eigenpair`)
example : ∃ s s' : KState ℚ, powerStep exCrit (fun f => |f 0 0|) (fun _ _ => 1) (.iso fun _ _ _ => 1 / 4)
      (.matrix fun _ _ _ => 5 / 4) s = .ok s' ∧
    (∀ i < exCrit.cells, ∀ g < exCrit.groups, s'.flux i g = s.flux i g) ∧ s'.keff = s.keff ∧ s.keff ≠ 0 ∧
    totalProduction exCrit (fissionMatrix (.matrix fun _ _ _ => 5 / 4)) s.flux ≠ 0 := by
  obtain ⟨s', h1, h2, h3⟩ := C27_eigenpair_is_fixed_point exCrit (fun f => |f 0 0|) (fun _ _ => 1)
    (fun _ _ _ => 1 / 4) (.matrix fun _ _ _ => 5 / 4) exCritContractive.ok (fun _ _ _ _ _ => by norm_num)
    ⟨fun _ _ => 1, 1⟩ _ (fun f hf => by rw [hf 0 (by simp [exCrit]) 0 (by simp [exCrit])]; norm_num)
    (by norm_num [totalProduction, exCrit, fissionMatrix]) exCritPair
  exact ⟨_, s', h1, h2, h3, by norm_num, by norm_num [totalProduction, exCrit, fissionMatrix]⟩

-- the example slab problem runs (`C27_power_iteration_stops`, `C28_violation`)
example : ∃ s n, powerIteration exProblem (fun f => |f 0 0|) (fun _ _ => false) exTotal (.iso fun _ _ _ => 1)
    (.vector (fun _ _ => 1 / 2) fun _ _ => 1) (fun i g => i + g + 1) = .ok (s, n) := by
  obtain ⟨x, n, _, h⟩ := C27_power_iteration_stops exProblem (fun f => |f 0 0|) (fun _ _ => false) exTotal
    (.iso fun _ _ _ => 1) (.vector (fun _ _ => 1 / 2) fun _ _ => 1) (fun i g => i + g + 1) (fun g _ => exOk g)
  exact ⟨_, n, h⟩

-- a call with one (constant) fission model completes (`C54_models`)
example : ∃ s n, mlPowerIteration exProblem (fun f => |f 0 0|) (fun _ _ => true) (fun _ _ => true)
    (fun _ _ => (0 : ℚ)) (fun a b => decide (b < a)) (fun _ => true) 100 exTotal (fun _ _ _ => 1)
    (.matrix fun _ _ _ => 1) 1 (fun _ => some fun _ _ _ _ => 1) 0 (fun _ => none) .none (fun _ _ => 1)
    (fun _ _ => 1) = .ok (s, n) := by
  unfold mlPowerIteration
  rw [if_neg (by omega)]
  have hs := mlStep_ok exProblem (fun f => |f 0 0|) (fun _ _ => true) exTotal (fun _ _ _ => 1) (fun _ _ _ => 1) 1
    (fun _ => some fun _ _ _ _ => 1) (fun _ => none) .none (fun g _ => exOk g) ⟨fun _ _ => 1, 1⟩
  obtain ⟨s', hs⟩ := hs
  exact ⟨s', 1, mlLoop_one _ _ _ _ _ _ _ _ hs fun c => rfl⟩

end Discrete1.Props
