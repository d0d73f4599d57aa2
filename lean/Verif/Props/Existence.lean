import Verif.Props.HybridTime
import Mathlib.LinearAlgebra.FiniteDimensional.Basic
import Mathlib.LinearAlgebra.Dimension.Constructions

/-!
# C74 (existence): contractive multigroup problems have exactly one solution, and source iteration finds it
-/

set_option linter.unusedSectionVars false
set_option linter.unusedSimpArgs false

namespace Discrete1.Props

open Finset Discrete1.Tools Discrete1.Spec Discrete1.Slab Discrete1.MultiGroup Discrete1.Drivers

variable {K : Type*} [Field K] [LinearOrder K] [IsStrictOrderedRing K]

/-- Angular fluxes of the problem without scattering driven by `q i n g` and `boundary`. -/
def Streams (p : Problem K) (xsTotal : ℕ → ℕ → K) (q : ℕ → ℕ → ℕ → K) (boundary : Arr3 K)
    (e : ℕ → ℕ → ℕ → K) : Prop :=
  ∀ g < p.groups, AllBalanced p.cells p.angles p.angleX p.dx (fun i => xsTotal (p.mm i) g)
      (fun n i => q i n g) (e g) ∧
    SweptInflow p.cells p.angles p.angleX p.bcL p.bcR
      (fun n => boundary.val 0 (bidx boundary.angles n) (bidx boundary.groups g))
      (fun n => boundary.val 1 (bidx boundary.angles n) (bidx boundary.groups g)) (e g)

theorem streams_exists (p : Problem K) (xsTotal : ℕ → ℕ → K) (q : ℕ → ℕ → ℕ → K) (boundary : Arr3 K)
    (hok : ∀ g < p.groups, SlabOk p xsTotal g) : ∃ e, Streams p xsTotal q boundary e := by
  have h := fun g (hg : g < p.groups) => C08_known_source_exists p xsTotal (fullArr p q) boundary g (hok g hg)
  choose e he using h
  refine ⟨fun g => if hg : g < p.groups then e g hg else fun _ _ => 0, fun g hg => ?_⟩
  simp only [hg, dif_pos]
  refine ⟨fun n hn i hi => ?_, (he g hg).2⟩
  have := (he g hg).1 n hn i hi
  simp only [fullArr, bidx_full _ _ hn, bidx_full _ _ hg] at this
  exact this

theorem streams_unique {p : Problem K} {xsTotal : ℕ → ℕ → K} {q q' : ℕ → ℕ → ℕ → K} {boundary : Arr3 K}
    {e e' : ℕ → ℕ → ℕ → K} (hok : ∀ g < p.groups, SlabOk p xsTotal g) (h : Streams p xsTotal q boundary e)
    (h' : Streams p xsTotal q' boundary e')
    (hq : ∀ i < p.cells, ∀ n < p.angles, ∀ g < p.groups, q i n g = q' i n g) :
    ∀ g < p.groups, ∀ n < p.angles, ∀ i ≤ p.cells, e g n i = e' g n i := fun g hg =>
  swept_unique (hok g hg).nonzero (hok g hg).phys (h g hg).1
    (fun n hn i hi => by rw [(h' g hg).1 n hn i hi, hq i hi n hn g hg]) (h g hg).2 (h' g hg).2

theorem sweptInflow_smul {N A : ℕ} {mu : ℕ → K} {bcL bcR : Bool} {bL bR : ℕ → K} {psi : ℕ → ℕ → K} (a : K)
    (h : SweptInflow N A mu bcL bcR bL bR psi) :
    SweptInflow N A mu bcL bcR (fun n => a * bL n) (fun n => a * bR n) (fun n i => a * psi n i) := by
  intro n hn
  have h := h n hn
  simp only [inflow, outflow] at h ⊢
  split_ifs at h ⊢ <;> linear_combination a * h

theorem streams_zero_add {p : Problem K} {xsTotal : ℕ → ℕ → K} {q q' : ℕ → ℕ → ℕ → K} {b : Arr3 K}
    {e e' : ℕ → ℕ → ℕ → K} (h : Streams p xsTotal q zeroBoundary e) (h' : Streams p xsTotal q' b e') :
    Streams p xsTotal (fun i n g => q i n g + q' i n g) b (fun g n i => e g n i + e' g n i) := by
  intro g hg
  refine ⟨fun n hn i hi => ?_, ?_⟩
  · linear_combination (h g hg).1 n hn i hi + (h' g hg).1 n hn i hi
  · have := sweptInflow_add (h g hg).2 (h' g hg).2
    simpa [zeroBoundary] using this

theorem streams_smul {p : Problem K} {xsTotal : ℕ → ℕ → K} {q : ℕ → ℕ → ℕ → K}
    {e : ℕ → ℕ → ℕ → K} (a : K) (h : Streams p xsTotal q zeroBoundary e) :
    Streams p xsTotal (fun i n g => a * q i n g) zeroBoundary (fun g n i => a * e g n i) := by
  intro g hg
  refine ⟨fun n hn i hi => ?_, ?_⟩
  · linear_combination a * (h g hg).1 n hn i hi
  · have := sweptInflow_smul a (h g hg).2
    simpa [zeroBoundary] using this

/-- Extension of a vector on the grid by zero. -/
def extend (p : Problem K) (v : Fin p.cells × Fin p.groups → K) : ℕ → ℕ → K := fun i g =>
  if h : i < p.cells ∧ g < p.groups then v (⟨i, h.1⟩, ⟨g, h.2⟩) else 0

/-- The scattering source of `v`. -/
def rate (p : Problem K) (xs : ℕ → ℕ → ℕ → K) (v : Fin p.cells × Fin p.groups → K) : ℕ → ℕ → ℕ → K :=
  fun i _ g => ∑ g' ∈ range p.groups, xs (p.mm i) g g' * extend p v i g'

/-- Angular fluxes caused by the scattering of `v`. -/
noncomputable def response (p : Problem K) (xsTotal : ℕ → ℕ → K) (xs : ℕ → ℕ → ℕ → K)
    (hok : ∀ g < p.groups, SlabOk p xsTotal g) (v : Fin p.cells × Fin p.groups → K) : ℕ → ℕ → ℕ → K :=
  (streams_exists p xsTotal (rate p xs v) zeroBoundary hok).choose

theorem response_spec (p : Problem K) (xsTotal : ℕ → ℕ → K) (xs : ℕ → ℕ → ℕ → K)
    (hok : ∀ g < p.groups, SlabOk p xsTotal g) (v : Fin p.cells × Fin p.groups → K) :
    Streams p xsTotal (rate p xs v) zeroBoundary (response p xsTotal xs hok v) :=
  (streams_exists p xsTotal (rate p xs v) zeroBoundary hok).choose_spec

theorem rate_add (p : Problem K) (xs : ℕ → ℕ → ℕ → K) (v w : Fin p.cells × Fin p.groups → K) (i n g : ℕ) :
    rate p xs (v + w) i n g = rate p xs v i n g + rate p xs w i n g := by
  unfold rate
  rw [← sum_add_distrib]
  refine sum_congr rfl fun g' _ => ?_
  unfold extend
  split_ifs
  · rw [Pi.add_apply]; ring
  · ring

theorem rate_smul (p : Problem K) (xs : ℕ → ℕ → ℕ → K) (a : K) (v : Fin p.cells × Fin p.groups → K)
    (i n g : ℕ) : rate p xs (a • v) i n g = a * rate p xs v i n g := by
  unfold rate
  rw [mul_sum]
  refine sum_congr rfl fun g' _ => ?_
  unfold extend
  split_ifs
  · rw [Pi.smul_apply, smul_eq_mul]; ring
  · ring

/-- One sweep of the scattering source, as a linear map on the grid. -/
noncomputable def sweepMap (p : Problem K) (xsTotal : ℕ → ℕ → K) (xs : ℕ → ℕ → ℕ → K)
    (hok : ∀ g < p.groups, SlabOk p xsTotal g) :
    (Fin p.cells × Fin p.groups → K) →ₗ[K] (Fin p.cells × Fin p.groups → K) where
  toFun v := fun a => scalarCenter p.angles p.angleW (response p xsTotal xs hok v a.2) a.1
  map_add' v w := by
    funext a
    have h := streams_unique hok (response_spec p xsTotal xs hok (v + w))
      (streams_zero_add (response_spec p xsTotal xs hok v) (response_spec p xsTotal xs hok w))
      (fun i _ n _ g _ => rate_add p xs v w i n g) a.2 a.2.2
    simp only [Pi.add_apply]
    unfold scalarCenter
    rw [← sum_add_distrib]
    refine sum_congr rfl fun n hn => ?_
    rw [h n (mem_range.mp hn) a.1 a.1.2.le, h n (mem_range.mp hn) (a.1 + 1) a.1.2]
    ring
  map_smul' c v := by
    funext a
    have h := streams_unique hok (response_spec p xsTotal xs hok (c • v))
      (streams_smul c (response_spec p xsTotal xs hok v))
      (fun i _ n _ g _ => rate_smul p xs c v i n g) a.2 a.2.2
    simp only [Pi.smul_apply, smul_eq_mul, RingHom.id_apply]
    unfold scalarCenter
    rw [mul_sum]
    refine sum_congr rfl fun n hn => ?_
    rw [h n (mem_range.mp hn) a.1 a.1.2.le, h n (mem_range.mp hn) (a.1 + 1) a.1.2]
    ring

/-- If the multigroup equations without sources have only the zero solution, they have a solution for all
sources and boundary data. -/
theorem solves_exists_of_unique (p : Problem K) (xsTotal : ℕ → ℕ → K) (xs : ℕ → ℕ → ℕ → K)
    (external boundary : Arr3 K) (hok : ∀ g < p.groups, SlabOk p xsTotal g)
    (huniq : ∀ phi e, SolvesMultigroup p xsTotal xs ⟨1, 1, fun _ _ _ => 0⟩ zeroBoundary phi e →
      ∀ i < p.cells, ∀ g < p.groups, phi i g = 0) :
    ∃ phi e, SolvesMultigroup p xsTotal xs external boundary phi e := by
  have hinj : Function.Injective ⇑((LinearMap.id : (Fin p.cells × Fin p.groups → K) →ₗ[K] _)
      - sweepMap p xsTotal xs hok) := by
    rw [injective_iff_map_eq_zero]
    intro v hv
    have hv' : ∀ a, v a = scalarCenter p.angles p.angleW (response p xsTotal xs hok v a.2) a.1 := by
      intro a
      have := congrFun hv a
      simp only [LinearMap.sub_apply, LinearMap.id_apply, Pi.sub_apply, Pi.zero_apply] at this
      exact sub_eq_zero.mp this
    have hs := response_spec p xsTotal xs hok v
    have h1 : SolvesMultigroup p xsTotal xs ⟨1, 1, fun _ _ _ => 0⟩ zeroBoundary (extend p v)
        (response p xsTotal xs hok v) := by
      refine ⟨fun g hg i hi => ?_, fun g hg n hn i hi => ?_, fun g hg => (hs g hg).2⟩
      · have : extend p v i g = v (⟨i, hi⟩, ⟨g, hg⟩) := by simp [extend, hi, hg]
        rw [this, hv']
      · rw [(hs g hg).1 n hn i hi]; simp [rate]
    have := huniq _ _ h1
    funext a
    have h3 := this a.1 a.1.2 a.2 a.2.2
    simpa [extend] using h3
  have hsurj := LinearMap.injective_iff_surjective.mp hinj
  obtain ⟨eb, hb⟩ := streams_exists p xsTotal
    (fun i n g => external.val i (bidx external.angles n) (bidx external.groups g)) boundary hok
  obtain ⟨v, hv⟩ := hsurj fun a => scalarCenter p.angles p.angleW (eb a.2) a.1
  have hv' : ∀ a, v a = scalarCenter p.angles p.angleW (response p xsTotal xs hok v a.2) a.1
      + scalarCenter p.angles p.angleW (eb a.2) a.1 := by
    intro a
    have := congrFun hv a
    simp only [LinearMap.sub_apply, LinearMap.id_apply, Pi.sub_apply] at this
    rw [← this]
    change _ = _ + (_ - scalarCenter p.angles p.angleW (response p xsTotal xs hok v a.2) a.1)
    ring
  have hs := streams_zero_add (response_spec p xsTotal xs hok v) hb
  refine ⟨extend p v, _, fun g hg i hi => ?_, fun g hg n hn i hi => (hs g hg).1 n hn i hi,
    fun g hg => (hs g hg).2⟩
  have : extend p v i g = v (⟨i, hi⟩, ⟨g, hg⟩) := by simp [extend, hi, hg]
  rw [this, hv']
  unfold scalarCenter
  rw [← sum_add_distrib]
  exact sum_congr rfl fun n _ => by ring

/-- C74: a contractive problem (`c < 1`) has a solution of the full multigroup equations, for all sources
and boundary data; with `C74_unique` it has exactly one. -/
theorem C74_exists (p : Problem K) (xsTotal : ℕ → ℕ → K) (xs : ℕ → ℕ → ℕ → K)
    (external boundary : Arr3 K) (c : K) (hc : 0 ≤ c) (hc1 : c < 1) (hcon : Contractive p xsTotal xs c) :
    ∃ phi e, SolvesMultigroup p xsTotal xs external boundary phi e :=
  solves_exists_of_unique p xsTotal xs external boundary hcon.ok fun phi e h1 => by
    have h2 : SolvesMultigroup p xsTotal xs ⟨1, 1, fun _ _ _ => 0⟩ zeroBoundary (fun _ _ => 0)
        (fun _ _ _ => 0) := by
      refine ⟨fun g hg i hi => ?_, fun g hg n hn i hi => ?_, fun g hg n hn => ?_⟩
      · simp [scalarCenter]
      · simp
      · simp [inflow, outflow, zeroBoundary]
    exact (C74_unique p xsTotal xs _ _ c hc hc1 hcon _ _ _ _ h1 h2).1

/-- C74, unconditional form: on a contractive problem source iteration returns, from every initial guess, a
flux within `c^sweeps` times the initial error of the unique solution of the multigroup equations. -/
theorem C74_source_iteration_finds_solution (p : Problem K) (xsTotal : ℕ → ℕ → K) (xs : ℕ → ℕ → ℕ → K)
    (external boundary : Arr3 K) (c : K) (hc : 0 ≤ c) (hc1 : c < 1) (hcon : Contractive p xsTotal xs c) :
    ∃ phi e, SolvesMultigroup p xsTotal xs external boundary phi e ∧
      (∀ phi' e', SolvesMultigroup p xsTotal xs external boundary phi' e' →
        ∀ i < p.cells, ∀ g < p.groups, phi' i g = phi i g) ∧
      ∀ (guess : ℕ → ℕ → K) (M : K), 0 ≤ M →
        (∀ i < p.cells, ∀ g < p.groups, |guess i g - phi i g| ≤ M) →
        ∃ flux sweeps, 1 ≤ sweeps ∧ sweeps ≤ 100 ∧
          sourceIteration p xsTotal (.iso xs) external boundary guess = .ok flux ∧
          (∀ i < p.cells, ∀ g < p.groups, |flux i g - phi i g| ≤ c ^ sweeps * M) ∧
          (sweeps < 100 → ∃ prev, p.convOut flux prev = true) := by
  obtain ⟨phi, e, h⟩ := C74_exists p xsTotal xs external boundary c hc hc1 hcon
  refine ⟨phi, e, h, fun phi' e' h' => (C74_unique p xsTotal xs external boundary c hc hc1 hcon _ _ _ _ h' h).1,
    fun guess M hM hg => ?_⟩
  exact C74_source_iteration_converges p xsTotal xs external boundary c M hc hc1.le hM hcon phi e h guess hg

/-- C22: on a contractive problem (`c < 1`), a flux that `source_iteration` (any number of sweeps) returns
unchanged solves the full multigroup equations. -/
theorem C22_call_fixed_point_solves (p : Problem K) (xsTotal : ℕ → ℕ → K) (xs : ℕ → ℕ → ℕ → K)
    (external boundary : Arr3 K) (c : K) (hc : 0 ≤ c) (hc1 : c < 1) (hcon : Contractive p xsTotal xs c)
    (phi f : ℕ → ℕ → K) (hf : sourceIteration p xsTotal (.iso xs) external boundary phi = .ok f)
    (hfix : ∀ i < p.cells, ∀ g < p.groups, f i g = phi i g) :
    ∃ e, SolvesMultigroup p xsTotal xs external boundary phi e := by
  obtain ⟨sol, e, hsol, _, hconv⟩ :=
    C74_source_iteration_finds_solution p xsTotal xs external boundary c hc hc1 hcon
  refine ⟨e, solves_congr_flux hsol fun i hi g hg => ?_⟩
  obtain ⟨m, hm, hmax⟩ := (range p.cells ×ˢ range p.groups).exists_max_image
    (fun a => |phi a.1 a.2 - sol a.1 a.2|) ⟨(i, g), by simp [hi, hg]⟩
  set M := |phi m.1 m.2 - sol m.1 m.2| with hM
  have hM0 : 0 ≤ M := abs_nonneg _
  have hb : ∀ i < p.cells, ∀ g < p.groups, |phi i g - sol i g| ≤ M := fun i hi g hg =>
    hmax (i, g) (by simp [hi, hg])
  obtain ⟨f', s, hs1, _, he, hbound, _⟩ := hconv phi M hM0 hb
  rw [hf] at he
  have : f = f' := Except.ok.inj he
  subst this
  have hm' := mem_product.mp hm
  have h5 := hbound m.1 (mem_range.mp hm'.1) m.2 (mem_range.mp hm'.2)
  rw [hfix m.1 (mem_range.mp hm'.1) m.2 (mem_range.mp hm'.2), ← hM] at h5
  have hcs : c ^ s ≤ c := by
    calc c ^ s ≤ c ^ 1 := pow_le_pow_of_le_one hc hc1.le hs1
      _ = c := pow_one c
  have h6 : c ^ s * M ≤ c * M := mul_le_mul_of_nonneg_right hcs hM0
  have hMz : M ≤ 0 := by
    by_contra hpos
    push Not at hpos
    nlinarith
  have := hb i hi g hg
  have := abs_nonpos_iff.mp (this.trans hMz)
  linarith

end Discrete1.Props
