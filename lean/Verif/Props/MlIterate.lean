import Verif.Props.MlSource
import Verif.Props.Existence
import Verif.Props.Energy
import Verif.Props.Compare

/-!
# C155, C156: source iteration with machine-learning scattering sources

C155: every pass of `ml_source_iteration` transports exactly the source its models produce, so the particle
balance with the true scattering rate holds.  C156: the error of the surrogate.
-/

set_option linter.unusedSectionVars false
set_option linter.unusedSimpArgs false

namespace Discrete1.Props

open Finset Discrete1.Spec Discrete1.Slab Discrete1.Tools Discrete1.MultiGroup Discrete1.Drivers Discrete1.Ml

variable {K : Type} [Field K] [LinearOrder K] [IsStrictOrderedRing K]

/-- `phi` is the scalar flux of a transport solution with the isotropic source `s` plus the external source. -/
structure Transports (p : Problem K) (xsTotal : ℕ → ℕ → K) (s : ℕ → ℕ → K) (external boundary : Arr3 K)
    (phi : ℕ → ℕ → K) (psi : ℕ → ℕ → ℕ → K) : Prop where
  scalar : ∀ g < p.groups, ∀ i < p.cells, phi i g = scalarCenter p.angles p.angleW (psi g) i
  balance : ∀ g < p.groups, AllBalanced p.cells p.angles p.angleX p.dx (fun i => xsTotal (p.mm i) g)
    (fun n i => s i g + sourceAt external i n g) (psi g)
  inflow : ∀ g < p.groups, SweptInflow p.cells p.angles p.angleX p.bcL p.bcR
    (fun n => sourceAt boundary 0 n g) (fun n => sourceAt boundary 1 n g) (psi g)

/-- The scattering source of the surrogate for the flux `flux`, material by material.  In a material whose
model is `f`, the rows handed to the model are the fluxes of the cells of that material in order, and each cell
gets the predicted spectrum rescaled to the exact scattering rate; in a material without a model each cell
gets the physics source. -/
def SurrogateSource (cells groups count : ℕ) (mm : ℕ → ℕ) (xs : ℕ → ℕ → ℕ → K)
    (models : ℕ → Option (Predict K)) (flux s : ℕ → ℕ → K) : Prop :=
  (∀ i < cells, mm i < count → models (mm i) = none → ∀ g < groups,
    s i g = ∑ g' ∈ range groups, xs (mm i) g g' * flux i g') ∧
  (∀ i < cells, count ≤ mm i → ∀ g < groups, s i g = 0) ∧
  ∀ nn < count, ∀ f, models nn = some f → ∃ (n : ℕ) (cell : ℕ → ℕ) (rows : ℕ → ℕ → K),
    (∀ a b, a < b → b < n → cell a < cell b) ∧ (∀ i, (i < cells ∧ mm i = nn) ↔ ∃ r < n, cell r = i) ∧
    (∀ r < n, rows r = flux (cell r)) ∧
    ∀ r < n, ∀ g < groups, s (cell r) g * (∑ g' ∈ range groups, f n rows r g')
      = f n rows r g * ∑ g' ∈ range groups, ∑ g'' ∈ range groups, xs nn g' g'' * flux (cell r) g''

theorem cellsOf_strict (cells : ℕ) (mm : ℕ → ℕ) (nn a b : ℕ) (hab : a < b) (hb : b < (cellsOf cells mm nn).length) :
    (cellsOf cells mm nn).getD a 0 < (cellsOf cells mm nn).getD b 0 := by
  rw [List.getD_eq_getElem _ _ (hab.trans hb), List.getD_eq_getElem _ _ hb]
  have : (cellsOf cells mm nn).Pairwise (· < ·) := List.Pairwise.filter _ List.pairwise_lt_range
  exact List.pairwise_iff_getElem.mp this a b _ hb hab

/-- What `scatter_prod_predict` computes on cross sections prepared by `update_cross_sections`. -/
theorem surrogate_source (cells groups count : ℕ) (flux : ℕ → ℕ → K) (xs : ℕ → ℕ → ℕ → K) (mm : ℕ → ℕ)
    (models : ℕ → Option (Predict K)) (label : Label) (hl : LabelsFor count label) (modelIdx : List ℕ)
    (hidx : ∀ nn < count, (nn ∈ modelIdx ↔ models nn ≠ none))
    (hflux : ∀ i < cells, ∀ g < groups, 0 ≤ flux i g)
    (hxs : ∀ m, ∀ o < groups, ∀ i < groups, 0 ≤ xs m o i)
    (hpred : ∀ nn f, models nn = some f → ∀ n rows, ∀ r < n, ∑ g ∈ range groups, f n rows r g ≠ 0) :
    ∃ source, scatterProdPredict cells groups count flux (updateCrossSections groups xs modelIdx) mm models label
        = .ok source ∧ SurrogateSource cells groups count mm xs models flux source := by
  obtain ⟨source, h1, h2, h3⟩ := scatter_cells cells groups count flux (updateCrossSections groups xs modelIdx) mm
    models label hl
  obtain ⟨source', h1', h4⟩ := C53_scatter_conserved_partial cells groups count flux xs mm models label hl modelIdx
    hidx hflux hxs hpred
  obtain rfl : source = source' := Except.ok.inj (h1.symm.trans h1')
  refine ⟨source, h1, fun i hi hm hn => (h4 i hi hm).2 hn, fun i _ hm g _ => h2 i g hm, fun nn hnn f hf => ?_⟩
  refine ⟨(cellsOf cells mm nn).length, fun r => (cellsOf cells mm nn).getD r 0, rowsOf (cellsOf cells mm nn) flux,
    fun a b => cellsOf_strict cells mm nn a b, fun i => ?_, fun r _ => rfl, fun r hr g hg => ?_⟩
  · rw [← mem_cellsOf]
    constructor
    · intro h
      exact ⟨(cellsOf cells mm nn).idxOf i, List.idxOf_lt_length_of_mem h, getD_idxOf h⟩
    · rintro ⟨r, hr, rfl⟩
      show (cellsOf cells mm nn).getD r 0 ∈ _
      rw [List.getD_eq_getElem _ _ hr]
      exact List.getElem_mem hr
  · have hmem : (cellsOf cells mm nn).getD r 0 ∈ cellsOf cells mm nn := by
      rw [List.getD_eq_getElem _ _ hr]; exact List.getElem_mem hr
    obtain ⟨hi, hm⟩ := mem_cellsOf.mp hmem
    obtain ⟨b, a, hb, hstep, ha⟩ := h3 _ (by rw [hm]; exact hnn)
    rw [scatterModelStep_ok cells groups flux _ mm models label _ count (by rw [hm]; exact hnn) hl, hm] at hstep
    have hstep := Except.ok.inj hstep
    simp only [hf] at hstep
    have hin : nn ∈ modelIdx := (hidx _ hnn).mpr (by rw [hf]; exact Option.some_ne_none f)
    have hid : (cellsOf cells mm nn).idxOf ((cellsOf cells mm nn).getD r 0) = r := by
      rw [List.getD_eq_getElem _ _ hr]
      exact List.Nodup.idxOf_getElem (List.Nodup.filter _ List.nodup_range) r hr
    beta_reduce
    rw [ha, ← hstep]
    split_ifs with hz
    · have hzero := blockSum_eq_zero (groups := groups) (f := rowsOf (cellsOf cells mm nn) flux)
        (fun r hr g hg => by
          unfold rowsOf
          rw [List.getD_eq_getElem _ _ hr]
          exact hflux _ (mem_cellsOf.mp (List.getElem_mem hr)).1 g hg) hz r hr
      have hzero : ∀ g < groups, flux ((cellsOf cells mm nn).getD r 0) g = 0 := hzero
      rw [hb, zero_mul, sum_eq_zero fun g _ => sum_eq_zero fun g' hg' => by
        rw [hzero g' (mem_range.mp hg'), mul_zero], mul_zero]
    · rw [putRows_of_mem hmem, hid]
      unfold rescale
      rw [scale_updated _ _ _ _ hin, accum_eq_sum, div_one]
      have := hpred nn f hf (cellsOf cells mm nn).length (rowsOf (cellsOf cells mm nn) flux) r hr
      rw [mul_assoc, div_mul_cancel₀ _ this]
      rfl

/-- One pass, for whatever source the models produced. -/
theorem mlSweep_spec (p : Problem K) (xsTotal : ℕ → ℕ → K) (xs : ℕ → ℕ → ℕ → K) (external boundary : Arr3 K)
    (count : ℕ) (models : ℕ → Option (Predict K)) (label : Label) (old source : ℕ → ℕ → K)
    (hok : ∀ g < p.groups, SlabOk p xsTotal g) (hshape : boundary.angles = external.angles)
    (hs : scatterProdPredict p.cells p.groups count old xs p.mm models label = .ok source) :
    ∃ new psi, mlSweep p xsTotal xs external boundary count models label old = .ok new ∧
      Transports p xsTotal source external boundary new psi := by
  have key : ∀ g < p.groups, ∃ f psi, Ml.scatterSourceSn p (fun m => xsTotal m g) (fun i => source i g)
        (external.group (bidx external.groups g)) (boundary.group (bidx boundary.groups g)) = .ok f ∧
      AllBalanced p.cells p.angles p.angleX p.dx (fun i => xsTotal (p.mm i) g)
        (fun n i => source i g + sourceAt external i n g) psi ∧
      SweptInflow p.cells p.angles p.angleX p.bcL p.bcR
        (fun n => sourceAt boundary 0 n g) (fun n => sourceAt boundary 1 n g) psi ∧
      ∀ i < p.cells, f i = scalarCenter p.angles p.angleW psi i := by
    intro g hg
    obtain ⟨f, psi, h1, h2, h3, h4⟩ := C08_scatter_source (N := p.cells) (A := p.angles) (fun m => xsTotal m g)
      (fun i => source i g) (external.group (bidx external.groups g)) (boundary.group (bidx boundary.groups g)) p.mm
      p.dx p.angleX p.angleW p.bcL p.bcR (hok g hg).nonzero (hok g hg).phys hshape
    refine ⟨f, psi, ?_, h2, h3, h4⟩
    unfold Ml.scatterSourceSn
    rw [if_pos (hok g hg).slab]
    exact h1
  choose f psi h1 h2 h3 h4 using key
  obtain ⟨new, hn, hnew⟩ := loopE_inv (fun k (fl : ℕ → ℕ → K) =>
      ∀ g (hg : g < p.groups), g < k → ∀ i < p.cells, fl i g = f g hg i) p.groups (fun gg flux =>
      (Ml.scatterSourceSn p (fun m => xsTotal m gg) (fun i => source i gg)
        (external.group (bidx external.groups gg)) (boundary.group (bidx boundary.groups gg))).map
        (putCol flux gg)) (fun _ _ => 0) (fun g hg h => absurd h (Nat.not_lt_zero _)) (fun k hk fl hfl => by
      refine ⟨putCol fl k (f k hk), by rw [h1 k hk]; rfl, fun g hg hgk i hi => ?_⟩
      unfold putCol
      by_cases h : g = k
      · subst h; rw [if_pos rfl]
      · rw [if_neg h]; exact hfl g hg (by omega) i hi)
  refine ⟨new, fun g => if hg : g < p.groups then psi g hg else fun _ _ => 0, ?_, ?_, ?_, ?_⟩
  · unfold mlSweep
    rw [hs]
    exact hn
  · intro g hg i hi
    simp only [hg, dif_pos]
    rw [hnew g hg hg i hi, h4 g hg i hi]
  · intro g hg; simp only [hg, dif_pos]; exact h2 g hg
  · intro g hg; simp only [hg, dif_pos]; exact h3 g hg

/-- Non-negative data on a mesh fine enough for the diamond scheme, models with non-negative, nonzero rows. -/
structure MlData (p : Problem K) (xsTotal : ℕ → ℕ → K) (xs : ℕ → ℕ → ℕ → K) (external boundary : Arr3 K)
    (models : ℕ → Option (Predict K)) : Prop where
  ok : ∀ g < p.groups, SlabOk p xsTotal g
  fine : ∀ g < p.groups, ∀ n < p.angles, FineFor p.cells (p.angleX n) p.dx (fun i => xsTotal (p.mm i) g)
  weights : ∀ n < p.angles, 0 ≤ p.angleW n
  xs : ∀ m, ∀ o < p.groups, ∀ i < p.groups, 0 ≤ xs m o i
  external : ∀ i < p.cells, ∀ n < p.angles, ∀ g < p.groups, 0 ≤ sourceAt external i n g
  boundary : ∀ t < 2, ∀ n < p.angles, ∀ g < p.groups, 0 ≤ sourceAt boundary t n g
  rows : ∀ nn f, models nn = some f → ∀ n rows, ∀ r < n,
    (∀ g < p.groups, 0 ≤ f n rows r g) ∧ 0 < ∑ g ∈ range p.groups, f n rows r g

theorem SurrogateSource.cell_cases {cells groups count : ℕ} {mm : ℕ → ℕ} {xs : ℕ → ℕ → ℕ → K}
    {models : ℕ → Option (Predict K)} {flux s : ℕ → ℕ → K}
    (h : SurrogateSource cells groups count mm xs models flux s) {i : ℕ} (hi : i < cells) :
    (∀ g < groups, s i g = ∑ g' ∈ range groups, xs (mm i) g g' * flux i g') ∨ (count ≤ mm i ∧ ∀ g < groups, s i g = 0)
    ∨ (mm i < count ∧ ∃ f n rows r, models (mm i) = some f ∧ r < n ∧
      ∀ g < groups, s i g * (∑ g' ∈ range groups, f n rows r g')
        = f n rows r g * ∑ g' ∈ range groups, ∑ g'' ∈ range groups, xs (mm i) g' g'' * flux i g'') := by
  rcases Nat.lt_or_ge (mm i) count with hm | hm
  · cases hmod : models (mm i) with
    | none => exact Or.inl (h.1 i hi hm hmod)
    | some f =>
      obtain ⟨n, cell, rows, _, hcell, _, hval⟩ := h.2.2 (mm i) hm f hmod
      obtain ⟨r, hr, hri⟩ := (hcell i).mp ⟨hi, rfl⟩
      refine Or.inr (Or.inr ⟨hm, f, n, rows, r, rfl, hr, fun g hg => ?_⟩)
      rw [← hri] at hval ⊢
      exact hval r hr g hg
  · exact Or.inr (Or.inl ⟨hm, h.2.1 i hi hm⟩)

theorem SurrogateSource.nonneg {p : Problem K} {xsTotal : ℕ → ℕ → K} {xs : ℕ → ℕ → ℕ → K}
    {external boundary : Arr3 K} {models : ℕ → Option (Predict K)} {count : ℕ} {flux s : ℕ → ℕ → K}
    (hd : MlData p xsTotal xs external boundary models)
    (hflux : ∀ i < p.cells, ∀ g < p.groups, 0 ≤ flux i g)
    (h : SurrogateSource p.cells p.groups count p.mm xs models flux s) :
    ∀ i < p.cells, ∀ g < p.groups, 0 ≤ s i g := by
  intro i hi g hg
  have hrow : ∀ g < p.groups, 0 ≤ ∑ g' ∈ range p.groups, xs (p.mm i) g g' * flux i g' := fun g hg =>
    sum_nonneg fun g' hg' => mul_nonneg (hd.xs _ g hg g' (mem_range.mp hg')) (hflux i hi g' (mem_range.mp hg'))
  rcases h.cell_cases hi with h1 | ⟨_, h1⟩ | ⟨_, f, n, rows, r, hf, hr, h1⟩
  · rw [h1 g hg]; exact hrow g hg
  · rw [h1 g hg]
  · obtain ⟨h2, h3⟩ := hd.rows _ f hf n rows r hr
    have h4 := mul_nonneg (h2 g hg) (sum_nonneg fun g' hg' => hrow g' (mem_range.mp hg'))
    rw [← h1 g hg] at h4
    exact nonneg_of_mul_nonneg_left h4 h3

/-- Summed over the groups the surrogate source is the exact scattering rate. -/
theorem SurrogateSource.total {p : Problem K} {xsTotal : ℕ → ℕ → K} {xs : ℕ → ℕ → ℕ → K}
    {external boundary : Arr3 K} {models : ℕ → Option (Predict K)} {count : ℕ} {flux s : ℕ → ℕ → K}
    (hd : MlData p xsTotal xs external boundary models)
    (h : SurrogateSource p.cells p.groups count p.mm xs models flux s) {i : ℕ} (hi : i < p.cells)
    (hm : p.mm i < count) :
    ∑ g ∈ range p.groups, s i g
      = ∑ g ∈ range p.groups, ∑ g' ∈ range p.groups, xs (p.mm i) g g' * flux i g' := by
  rcases h.cell_cases hi with h1 | ⟨h0, _⟩ | ⟨_, f, n, rows, r, hf, hr, h1⟩
  · exact sum_congr rfl fun g hg => h1 g (mem_range.mp hg)
  · omega
  · have h3 := (hd.rows _ f hf n rows r hr).2
    have h4 := sum_congr (s₁ := range p.groups) rfl fun g hg => h1 g (mem_range.mp hg)
    rw [← sum_mul, ← sum_mul, mul_comm] at h4
    exact mul_left_cancel₀ h3.ne' h4

theorem transports_nonneg {p : Problem K} {xsTotal : ℕ → ℕ → K} {xs : ℕ → ℕ → ℕ → K} {s : ℕ → ℕ → K}
    {external boundary : Arr3 K} {models : ℕ → Option (Predict K)} {phi : ℕ → ℕ → K} {psi : ℕ → ℕ → ℕ → K}
    (hd : MlData p xsTotal xs external boundary models) (hs : ∀ i < p.cells, ∀ g < p.groups, 0 ≤ s i g)
    (h : Transports p xsTotal s external boundary phi psi) : ∀ i < p.cells, ∀ g < p.groups, 0 ≤ phi i g := by
  intro i hi g hg
  have hn := swept_nonneg (hd.ok g hg).nonzero (hd.ok g hg).phys (hd.fine g hg) (h.balance g hg) (h.inflow g hg)
    (fun n hn i hi => add_nonneg (hs i hi g hg) (hd.external i hi n hn g hg))
    (fun n hn _ => hd.boundary 0 (by omega) n hn g hg) (fun n hn _ => hd.boundary 1 (by omega) n hn g hg)
  rw [h.scalar g hg i hi]
  exact scalarCenter_nonneg hd.weights (fun n hn' => hn n hn' i hi.le) (fun n hn' => hn n hn' (i + 1) hi)

/-- C155: `ml_source_iteration` with a usable label on non-negative data makes between 1 and 50 passes, stops
early exactly when its criterion held, and returns the last pass.  Every pass keeps the flux non-negative and is
the transport solution of exactly the source its models produce from the previous flux (the predicted spectra
rescaled to the exact scattering rates, physics for materials without a model) plus the external and boundary
sources. -/
theorem C155_surrogate_passes (p : Problem K) (conv : (ℕ → ℕ → K) → (ℕ → ℕ → K) → Bool) (xsTotal : ℕ → ℕ → K)
    (xs : ℕ → ℕ → ℕ → K) (external boundary : Arr3 K) (count : ℕ) (models : ℕ → Option (Predict K))
    (label : Label) (guess : ℕ → ℕ → K) (modelIdx : List ℕ) (hl : LabelsFor count label)
    (hidx : ∀ nn < count, (nn ∈ modelIdx ↔ models nn ≠ none)) (hshape : boundary.angles = external.angles)
    (hd : MlData p xsTotal xs external boundary models)
    (hguess : ∀ i < p.cells, ∀ g < p.groups, 0 ≤ guess i g) :
    ∃ (x : ℕ → ℕ → ℕ → K) (passes : ℕ), 1 ≤ passes ∧ passes ≤ 50 ∧ x 0 = guess ∧
      mlSourceIteration p conv xsTotal (updateCrossSections p.groups xs modelIdx) external boundary count models
        label guess = .ok (x passes) ∧
      (passes < 50 → conv (x passes) (x (passes - 1)) = true) ∧
      (∀ j, 1 ≤ j → j < passes → conv (x j) (x (j - 1)) = false) ∧
      (∀ j ≤ passes, ∀ i < p.cells, ∀ g < p.groups, 0 ≤ x j i g) ∧
      ∀ j < passes, ∃ s psi, SurrogateSource p.cells p.groups count p.mm xs models (x j) s ∧
        Transports p xsTotal s external boundary (x (j + 1)) psi := by
  have step : ∀ old : ℕ → ℕ → K, (∀ i < p.cells, ∀ g < p.groups, 0 ≤ old i g) →
      ∃ new s psi, mlSweep p xsTotal (updateCrossSections p.groups xs modelIdx) external boundary count models label
        old = .ok new ∧ SurrogateSource p.cells p.groups count p.mm xs models old s ∧
        Transports p xsTotal s external boundary new psi ∧ ∀ i < p.cells, ∀ g < p.groups, 0 ≤ new i g := by
    intro old hold
    obtain ⟨s, h1, h2⟩ := surrogate_source p.cells p.groups count old xs p.mm models label hl modelIdx hidx hold
      hd.xs (fun nn f hf n rows r hr => (hd.rows nn f hf n rows r hr).2.ne')
    obtain ⟨new, psi, h3, h4⟩ := mlSweep_spec p xsTotal (updateCrossSections p.groups xs modelIdx) external boundary
      count models label old s hd.ok hshape h1
    exact ⟨new, s, psi, h3, h2, h4, transports_nonneg hd (h2.nonneg hd hold) h4⟩
  obtain ⟨x, k, hk, hx0, hstep, hP, he, hconv, hno⟩ := iterateE_spec
    (mlSweep p xsTotal (updateCrossSections p.groups xs modelIdx) external boundary count models label) conv
    (fun f => ∀ i < p.cells, ∀ g < p.groups, 0 ≤ f i g) (fun a ha => by
      obtain ⟨new, _, _, h, _, _, h'⟩ := step a ha
      exact ⟨new, h, h'⟩) 49 guess hguess
  refine ⟨x, k + 1, by omega, by omega, hx0, he, fun h => hconv (by omega), fun j h1 h2 => ?_,
    fun j hj => hP j hj, fun j hj => ?_⟩
  · obtain ⟨j, rfl⟩ : ∃ i, j = i + 1 := ⟨j - 1, by omega⟩
    exact hno j (by omega)
  · obtain ⟨new, s, psi, h, hs, ht, _⟩ := step (x j) (hP j (by omega))
    have h5 := hstep j (by omega)
    rw [h] at h5
    rw [← Except.ok.inj h5]
    exact ⟨s, psi, hs, ht⟩

/-- Balance of a transport solution with source `s`. -/
theorem transports_balance {p : Problem K} {xsTotal : ℕ → ℕ → K} {s : ℕ → ℕ → K} {external boundary : Arr3 K}
    {phi : ℕ → ℕ → K} {psi : ℕ → ℕ → ℕ → K} (hdx : ∀ i < p.cells, p.dx i ≠ 0)
    (hw : ∑ n ∈ range p.angles, p.angleW n = 1) (h : Transports p xsTotal s external boundary phi psi) {g : ℕ}
    (hg : g < p.groups) :
    netLeakage p psi g + ∑ i ∈ range p.cells, p.dx i * (xsTotal (p.mm i) g * phi i g)
      = ∑ i ∈ range p.cells, p.dx i * s i g
        + ∑ i ∈ range p.cells, p.dx i * ∑ n ∈ range p.angles, p.angleW n * sourceAt external i n g := by
  have hn : ∀ n ∈ range p.angles, p.angleW n * p.angleX n * (psi g n p.cells - psi g n 0)
      + ∑ i ∈ range p.cells, p.dx i * (xsTotal (p.mm i) g * (p.angleW n * ((psi g n i + psi g n (i + 1)) / 2)))
      = ∑ i ∈ range p.cells, p.dx i * (p.angleW n * s i g)
        + ∑ i ∈ range p.cells, p.dx i * (p.angleW n * sourceAt external i n g) := by
    intro n hn
    have h1 := congrArg (fun x => p.angleW n * x) (balance_total hdx (h.balance g hg n (mem_range.mp hn)))
    simp only [mul_add, mul_sum, sum_add_distrib] at h1
    have e1 : ∑ i ∈ range p.cells, p.dx i * (xsTotal (p.mm i) g * (p.angleW n * ((psi g n i + psi g n (i + 1)) / 2)))
        = ∑ i ∈ range p.cells, p.angleW n * (xsTotal (p.mm i) g * p.dx i * ((psi g n i + psi g n (i + 1)) / 2)) :=
      sum_congr rfl fun i _ => by ring
    have e2 : ∑ i ∈ range p.cells, p.dx i * (p.angleW n * s i g)
        = ∑ i ∈ range p.cells, p.angleW n * (p.dx i * s i g) := sum_congr rfl fun i _ => by ring
    have e3 : ∑ i ∈ range p.cells, p.dx i * (p.angleW n * sourceAt external i n g)
        = ∑ i ∈ range p.cells, p.angleW n * (p.dx i * sourceAt external i n g) := sum_congr rfl fun i _ => by ring
    rw [e1, e2, e3]
    linear_combination h1
  have hsum := sum_congr (s₁ := range p.angles) rfl hn
  rw [sum_add_distrib, sum_add_distrib, sum_comm, sum_comm (s := range p.angles), sum_comm (s := range p.angles)] at hsum
  have e1 : ∑ i ∈ range p.cells, p.dx i * (xsTotal (p.mm i) g * phi i g)
      = ∑ i ∈ range p.cells, ∑ n ∈ range p.angles,
        p.dx i * (xsTotal (p.mm i) g * (p.angleW n * ((psi g n i + psi g n (i + 1)) / 2))) := by
    refine sum_congr rfl fun i hi => ?_
    rw [h.scalar g hg i (mem_range.mp hi)]
    unfold scalarCenter
    rw [mul_sum, mul_sum]
  have e2 : ∑ i ∈ range p.cells, p.dx i * s i g
      = ∑ i ∈ range p.cells, ∑ n ∈ range p.angles, p.dx i * (p.angleW n * s i g) :=
    sum_congr rfl fun i _ => by rw [← mul_sum, ← sum_mul, hw, one_mul]
  have e3 : ∑ i ∈ range p.cells, p.dx i * ∑ n ∈ range p.angles, p.angleW n * sourceAt external i n g
      = ∑ i ∈ range p.cells, ∑ n ∈ range p.angles, p.dx i * (p.angleW n * sourceAt external i n g) :=
    sum_congr rfl fun i _ => by rw [mul_sum]
  unfold netLeakage
  rw [e1, e2, e3]
  exact hsum

/-- C155: the particle balance of every pass, with the *true* scattering cross sections, whatever the models
predict: summed over the groups, net leakage plus collisions of the new flux equal the scattering of the flux
before the pass plus the external source. -/
theorem C155_surrogate_balance (p : Problem K) (conv : (ℕ → ℕ → K) → (ℕ → ℕ → K) → Bool) (xsTotal : ℕ → ℕ → K)
    (xs : ℕ → ℕ → ℕ → K) (external boundary : Arr3 K) (count : ℕ) (models : ℕ → Option (Predict K))
    (label : Label) (guess : ℕ → ℕ → K) (modelIdx : List ℕ) (hl : LabelsFor count label)
    (hidx : ∀ nn < count, (nn ∈ modelIdx ↔ models nn ≠ none)) (hshape : boundary.angles = external.angles)
    (hd : MlData p xsTotal xs external boundary models) (hw : ∑ n ∈ range p.angles, p.angleW n = 1)
    (hG : 0 < p.groups) (hlisted : ∀ i < p.cells, p.mm i < count)
    (hguess : ∀ i < p.cells, ∀ g < p.groups, 0 ≤ guess i g) :
    ∃ (x : ℕ → ℕ → ℕ → K) (passes : ℕ), 1 ≤ passes ∧ passes ≤ 50 ∧ x 0 = guess ∧
      mlSourceIteration p conv xsTotal (updateCrossSections p.groups xs modelIdx) external boundary count models
        label guess = .ok (x passes) ∧
      ∀ j < passes, ∃ s psi, SurrogateSource p.cells p.groups count p.mm xs models (x j) s ∧
        Transports p xsTotal s external boundary (x (j + 1)) psi ∧
        ∑ g ∈ range p.groups, netLeakage p psi g
          + ∑ g ∈ range p.groups, ∑ i ∈ range p.cells, p.dx i * (xsTotal (p.mm i) g * x (j + 1) i g)
        = ∑ i ∈ range p.cells, p.dx i *
            (∑ g ∈ range p.groups, ∑ g' ∈ range p.groups, xs (p.mm i) g g' * x j i g')
          + ∑ g ∈ range p.groups, ∑ i ∈ range p.cells, p.dx i *
            ∑ n ∈ range p.angles, p.angleW n * sourceAt external i n g := by
  obtain ⟨x, k, hk, hk', hx0, he, _, _, _, hstep⟩ := C155_surrogate_passes p conv xsTotal xs external boundary count
    models label guess modelIdx hl hidx hshape hd hguess
  refine ⟨x, k, hk, hk', hx0, he, fun j hj => ?_⟩
  obtain ⟨s, psi, hs, ht⟩ := hstep j hj
  refine ⟨s, psi, hs, ht, ?_⟩
  have hdx : ∀ i < p.cells, p.dx i ≠ 0 := fun i hi => ((hd.ok 0 hG).phys i hi).1.ne'
  rw [← sum_add_distrib, sum_congr rfl fun g hg => transports_balance hdx hw ht (mem_range.mp hg), sum_add_distrib]
  congr 1
  rw [sum_comm]
  refine sum_congr rfl fun i hi => ?_
  rw [← mul_sum, hs.total hd (mem_range.mp hi) (hlisted i (mem_range.mp hi))]

/-! ## C156: the error of the surrogate -/

/-- For every flux (with property `P`) within `R` of `phi` the source of the models differs from the physics
source by at most `eps sigma_t`. -/
def AccurateNear (P : (ℕ → ℕ → K) → Prop) (p : Problem K) (xsTotal : ℕ → ℕ → K) (xs xsUsed : ℕ → ℕ → ℕ → K)
    (count : ℕ) (models : ℕ → Option (Predict K)) (label : Label) (phi : ℕ → ℕ → K) (R eps : K) : Prop :=
  ∀ flux, P flux → (∀ i < p.cells, ∀ g < p.groups, |flux i g - phi i g| ≤ R) →
    ∃ s, scatterProdPredict p.cells p.groups count flux xsUsed p.mm models label = .ok s ∧
      ∀ i < p.cells, ∀ g < p.groups,
        |s i g - ∑ g' ∈ range p.groups, xs (p.mm i) g g' * flux i g'| ≤ eps * xsTotal (p.mm i) g

/-- Error of one pass. -/
theorem ml_pass_error (p : Problem K) (xsTotal : ℕ → ℕ → K) (xs : ℕ → ℕ → ℕ → K) (external boundary : Arr3 K)
    (c eps M : K) (hc : 0 ≤ c) (heps : 0 ≤ eps) (hM : 0 ≤ M) (hcon : Contractive p xsTotal xs c)
    (phi old new s : ℕ → ℕ → K) (psi psi' : ℕ → ℕ → ℕ → K)
    (hsol : SolvesMultigroup p xsTotal xs external boundary phi psi)
    (hold : ∀ i < p.cells, ∀ g < p.groups, |old i g - phi i g| ≤ M)
    (hs : ∀ i < p.cells, ∀ g < p.groups,
      |s i g - ∑ g' ∈ range p.groups, xs (p.mm i) g g' * old i g'| ≤ eps * xsTotal (p.mm i) g)
    (ht : Transports p xsTotal s external boundary new psi') :
    ∀ i < p.cells, ∀ g < p.groups, |new i g - phi i g| ≤ c * M + eps := by
  intro i hi g hg
  obtain ⟨hb, hin⟩ := swept_sub (ht.balance g hg) (hsol.balance g hg) (ht.inflow g hg) (hsol.inflow g hg)
  have hb0 : InflowWithin p.angles p.angleX p.bcL p.bcR (fun _ => 0) (fun _ => 0) (c * M + eps) := fun n _ => by
    have : 0 ≤ c * M + eps := by positivity
    split_ifs <;> simp [this]
  have hle := swept_abs_le (by positivity : (0 : K) ≤ c * M + eps) (hcon.ok g hg).nonzero (hcon.ok g hg).phys
    (hcon.fine g hg) hb hin (fun n hn i hi => by
      have hsig := ((hcon.ok g hg).phys i hi).2
      have e : s i g + sourceAt external i n g - ((∑ og ∈ range p.groups, xs (p.mm i) g og * phi i og)
            + external.val i (bidx external.angles n) (bidx external.groups g))
          = (s i g - ∑ g' ∈ range p.groups, xs (p.mm i) g g' * old i g')
            + ∑ g' ∈ range p.groups, xs (p.mm i) g g' * (old i g' - phi i g') := by
        have : sourceAt external i n g = external.val i (bidx external.angles n) (bidx external.groups g) := rfl
        rw [this]
        simp only [mul_sub, sum_sub_distrib]; ring
      rw [e]
      have h1 : |∑ g' ∈ range p.groups, xs (p.mm i) g g' * (old i g' - phi i g')|
          ≤ c * xsTotal (p.mm i) g * M := by
        refine (abs_sum_le_sum_abs _ _).trans ?_
        calc ∑ g' ∈ range p.groups, |xs (p.mm i) g g' * (old i g' - phi i g')|
            ≤ ∑ g' ∈ range p.groups, xs (p.mm i) g g' * M := sum_le_sum fun g' hg' => by
              have hx := hcon.nonneg i hi g hg g' (mem_range.mp hg')
              rw [abs_mul, abs_of_nonneg hx]
              exact mul_le_mul_of_nonneg_left (hold i hi g' (mem_range.mp hg')) hx
          _ = (∑ g' ∈ range p.groups, xs (p.mm i) g g') * M := by rw [sum_mul]
          _ ≤ c * xsTotal (p.mm i) g * M := mul_le_mul_of_nonneg_right (hcon.rows i hi g hg) hM
      have h2 := abs_add_le (s i g - ∑ g' ∈ range p.groups, xs (p.mm i) g g' * old i g')
        (∑ g' ∈ range p.groups, xs (p.mm i) g g' * (old i g' - phi i g'))
      have h3 := hs i hi g hg
      calc _ ≤ _ := h2
        _ ≤ eps * xsTotal (p.mm i) g + c * xsTotal (p.mm i) g * M := add_le_add h3 h1
        _ = xsTotal (p.mm i) g * (c * M + eps) := by ring) hb0
  rw [ht.scalar g hg i hi, hsol.scalar g hg i hi, ← scalarCenter_sub]
  exact scalarCenter_abs_le hcon.weights hcon.norm (fun n hn => hle n hn i hi.le) (fun n hn => hle n hn (i + 1) hi)

/-- Error of the whole iteration, for a property `P` of fluxes that passes keep. -/
theorem surrogate_error_of (P : (ℕ → ℕ → K) → Prop) (p : Problem K) (conv : (ℕ → ℕ → K) → (ℕ → ℕ → K) → Bool)
    (xsTotal : ℕ → ℕ → K) (xs xsUsed : ℕ → ℕ → ℕ → K) (external boundary : Arr3 K) (count : ℕ)
    (models : ℕ → Option (Predict K)) (label : Label) (guess : ℕ → ℕ → K) (c eps M R : K) (hc : 0 ≤ c) (hc1 : c < 1)
    (heps : 0 ≤ eps) (hM : 0 ≤ M) (hR : M ≤ R) (hR' : eps / (1 - c) ≤ R) (hshape : boundary.angles = external.angles)
    (hcon : Contractive p xsTotal xs c) (phi : ℕ → ℕ → K) (psi : ℕ → ℕ → ℕ → K)
    (hsol : SolvesMultigroup p xsTotal xs external boundary phi psi)
    (hacc : AccurateNear P p xsTotal xs xsUsed count models label phi R eps) (hP0 : P guess)
    (hP1 : ∀ old new, P old → mlSweep p xsTotal xsUsed external boundary count models label old = .ok new → P new)
    (hguess : ∀ i < p.cells, ∀ g < p.groups, |guess i g - phi i g| ≤ M) :
    ∃ flux passes, 1 ≤ passes ∧ passes ≤ 50 ∧
      mlSourceIteration p conv xsTotal xsUsed external boundary count models label guess = .ok flux ∧
      (∀ i < p.cells, ∀ g < p.groups, |flux i g - phi i g| ≤ c ^ passes * M + eps / (1 - c)) ∧
      (passes < 50 → ∃ prev, conv flux prev = true) := by
  have h1c : 0 < 1 - c := by linarith
  have hE : eps = (1 - c) * (eps / (1 - c)) := (mul_div_cancel₀ eps h1c.ne').symm
  have hE0 : 0 ≤ eps / (1 - c) := div_nonneg heps h1c.le
  have step : ∀ old : ℕ → ℕ → K, P old → ∀ m, 0 ≤ m → m ≤ R → (∀ i < p.cells, ∀ g < p.groups, |old i g - phi i g| ≤ m) →
      ∃ new, mlSweep p xsTotal xsUsed external boundary count models label old = .ok new ∧
        ∀ i < p.cells, ∀ g < p.groups, |new i g - phi i g| ≤ c * m + eps := by
    intro old hPo m hm hmR hold
    obtain ⟨s, h1, h2⟩ := hacc old hPo fun i hi g hg => (hold i hi g hg).trans hmR
    obtain ⟨new, psi', h3, h4⟩ := mlSweep_spec p xsTotal xsUsed external boundary count models label old s hcon.ok
      hshape h1
    exact ⟨new, h3, ml_pass_error p xsTotal xs external boundary c eps m hc heps hm hcon phi old new s psi psi' hsol
      hold h2 h4⟩
  have hRR : c * R + eps ≤ R := by
    have : eps ≤ (1 - c) * R := by rw [hE]; exact mul_le_mul_of_nonneg_left hR' h1c.le
    linarith
  obtain ⟨x, k, hk, hx0, hstep, hP, he, hconv, _⟩ := iterateE_spec
    (mlSweep p xsTotal xsUsed external boundary count models label) conv
    (fun f => P f ∧ ∀ i < p.cells, ∀ g < p.groups, |f i g - phi i g| ≤ R) (fun a ha => by
      obtain ⟨new, h, h'⟩ := step a ha.1 R (hM.trans hR) le_rfl ha.2
      exact ⟨new, h, hP1 a new ha.1 h, fun i hi g hg => (h' i hi g hg).trans hRR⟩) 49 guess
    ⟨hP0, fun i hi g hg => (hguess i hi g hg).trans hR⟩
  -- the sharper bound along the trace
  have key : ∀ j ≤ k + 1, ∀ i < p.cells, ∀ g < p.groups,
      |x j i g - phi i g| ≤ c ^ j * M + (1 - c ^ j) * (eps / (1 - c)) := by
    intro j
    induction j with
    | zero => intro _ i hi g hg; rw [hx0, pow_zero, one_mul, sub_self, zero_mul, add_zero]; exact hguess i hi g hg
    | succ j ih =>
      intro hj i hi g hg
      have hpow0 : 0 ≤ c ^ j := pow_nonneg hc j
      have hpow1 : c ^ j ≤ 1 := pow_le_one₀ hc hc1.le
      obtain ⟨new, h, h'⟩ := step (x j) (hP j (by omega)).1 (c ^ j * M + (1 - c ^ j) * (eps / (1 - c)))
        (add_nonneg (mul_nonneg hpow0 hM) (mul_nonneg (by linarith) hE0))
        (by
          have a1 : c ^ j * M ≤ c ^ j * R := mul_le_mul_of_nonneg_left hR hpow0
          have a2 : (1 - c ^ j) * (eps / (1 - c)) ≤ (1 - c ^ j) * R := mul_le_mul_of_nonneg_left hR' (by linarith)
          linarith) (ih (by omega))
      have h5 := hstep j (by omega)
      rw [h] at h5
      rw [← Except.ok.inj h5]
      refine (h' i hi g hg).trans (le_of_eq ?_)
      rw [pow_succ]
      linear_combination hE
  refine ⟨x (k + 1), k + 1, by omega, by omega, he, fun i hi g hg => (key (k + 1) le_rfl i hi g hg).trans ?_,
    fun h => ⟨_, hconv (by omega)⟩⟩
  have hpow0 : 0 ≤ c ^ (k + 1) := pow_nonneg hc _
  have : (1 - c ^ (k + 1)) * (eps / (1 - c)) ≤ eps / (1 - c) := by
    have := mul_nonneg hpow0 hE0
    linarith
  linarith

/-- C156: suppose that for non-negative fluxes near the physics solution `phi` the models reproduce the scattering
source within `eps sigma_t`.  Then the flux returned by `ml_source_iteration` after any number of passes is within
`c^passes` times the initial error plus `eps / (1 - c)` of the physics solution. -/
theorem C156_surrogate_error (p : Problem K) (conv : (ℕ → ℕ → K) → (ℕ → ℕ → K) → Bool) (xsTotal : ℕ → ℕ → K)
    (xs : ℕ → ℕ → ℕ → K) (external boundary : Arr3 K) (count : ℕ) (models : ℕ → Option (Predict K))
    (label : Label) (guess : ℕ → ℕ → K) (modelIdx : List ℕ) (c eps M R : K) (hc : 0 ≤ c) (hc1 : c < 1)
    (heps : 0 ≤ eps) (hM : 0 ≤ M) (hR : M ≤ R) (hR' : eps / (1 - c) ≤ R) (hl : LabelsFor count label)
    (hidx : ∀ nn < count, (nn ∈ modelIdx ↔ models nn ≠ none)) (hshape : boundary.angles = external.angles)
    (hd : MlData p xsTotal xs external boundary models) (hcon : Contractive p xsTotal xs c) (phi : ℕ → ℕ → K)
    (psi : ℕ → ℕ → ℕ → K) (hsol : SolvesMultigroup p xsTotal xs external boundary phi psi)
    (hacc : ∀ flux s, (∀ i < p.cells, ∀ g < p.groups, 0 ≤ flux i g) →
      (∀ i < p.cells, ∀ g < p.groups, |flux i g - phi i g| ≤ R) →
      SurrogateSource p.cells p.groups count p.mm xs models flux s → ∀ i < p.cells, ∀ g < p.groups,
        |s i g - ∑ g' ∈ range p.groups, xs (p.mm i) g g' * flux i g'| ≤ eps * xsTotal (p.mm i) g)
    (hpos : ∀ i < p.cells, ∀ g < p.groups, 0 ≤ guess i g)
    (hguess : ∀ i < p.cells, ∀ g < p.groups, |guess i g - phi i g| ≤ M) :
    ∃ flux passes, 1 ≤ passes ∧ passes ≤ 50 ∧
      mlSourceIteration p conv xsTotal (updateCrossSections p.groups xs modelIdx) external boundary count models label
        guess = .ok flux ∧
      (∀ i < p.cells, ∀ g < p.groups, |flux i g - phi i g| ≤ c ^ passes * M + eps / (1 - c)) ∧
      (passes < 50 → ∃ prev, conv flux prev = true) := by
  have src := fun old hold => surrogate_source p.cells p.groups count old xs p.mm models label hl modelIdx hidx hold
      hd.xs (fun nn f hf n rows r hr => (hd.rows nn f hf n rows r hr).2.ne')
  refine surrogate_error_of (fun f => ∀ i < p.cells, ∀ g < p.groups, 0 ≤ f i g) p conv xsTotal xs _ external boundary
    count models label guess c eps M R hc hc1 heps hM hR hR' hshape hcon phi psi hsol (fun flux h0 h1 => ?_) hpos
    (fun old new hold hnew => ?_) hguess
  · obtain ⟨s, h2, h3⟩ := src flux h0
    exact ⟨s, h2, hacc flux s h0 h1 h3⟩
  · obtain ⟨s, h1, h2⟩ := src old hold
    obtain ⟨new', psi', h3, h4⟩ := mlSweep_spec p xsTotal (updateCrossSections p.groups xs modelIdx) external boundary
      count models label old s hd.ok hshape h1
    obtain rfl : new' = new := Except.ok.inj (h3.symm.trans hnew)
    exact transports_nonneg hd (h2.nonneg hd hold) h4

/-- With placeholders in place of all models the source is the physics source for every flux. -/
theorem placeholders_exact (p : Problem K) (xsTotal : ℕ → ℕ → K) (xs : ℕ → ℕ → ℕ → K) (count : ℕ) (label : Label)
    (hl : LabelsFor count label) (hlisted : ∀ i < p.cells, p.mm i < count)
    (hxs : ∀ m, ∀ o < p.groups, ∀ i < p.groups, 0 ≤ xs m o i) (phi : ℕ → ℕ → K) (R : K) :
    AccurateNear (fun _ => True) p xsTotal xs xs count (fun _ => none) label phi R 0 := by
  intro flux _ _
  obtain ⟨s, h1, _, h3⟩ := scatter_cells p.cells p.groups count flux xs p.mm (fun _ => none) label hl
  refine ⟨s, h1, fun i hi g hg => ?_⟩
  obtain ⟨b, a, hb, hstep, ha⟩ := h3 i (hlisted i hi)
  rw [scatterModelStep_ok p.cells p.groups flux xs p.mm _ label _ count (hlisted i hi) hl] at hstep
  have hstep := Except.ok.inj hstep
  have hmem : i ∈ cellsOf p.cells p.mm (p.mm i) := mem_cellsOf.mpr ⟨hi, rfl⟩
  have e : s i g = ∑ g' ∈ range p.groups, xs (p.mm i) g g' * flux i g' := by
    rw [ha, ← hstep]
    show putRows _ _ _ i g = _
    rw [putRows_of_mem hmem]
    unfold scatterProd
    simp only
    rw [getD_idxOf hmem, rowsOf_idxOf hmem, rowsOf_idxOf hmem, matSum_eq, accum_eq_sum]
    split_ifs with hz
    · rw [hb g]
      have r := (sum_eq_zero_iff_of_nonneg fun o ho => sum_nonneg fun i' hi' =>
        hxs (p.mm i) o (mem_range.mp ho) i' (mem_range.mp hi')).mp hz g (mem_range.mpr hg)
      have r2 := (sum_eq_zero_iff_of_nonneg fun i' hi' => hxs (p.mm i) g hg i' (mem_range.mp hi')).mp r
      rw [sum_eq_zero fun i' hi' => by rw [r2 i' hi', zero_mul]]
    · exact sum_congr rfl fun _ _ => mul_comm _ _
  rw [e, sub_self, abs_zero, zero_mul]

/-- C156: with integer placeholders for all materials `ml_source_iteration` converges to the physics solution. -/
theorem C156_placeholders (p : Problem K) (conv : (ℕ → ℕ → K) → (ℕ → ℕ → K) → Bool) (xsTotal : ℕ → ℕ → K)
    (xs : ℕ → ℕ → ℕ → K) (external boundary : Arr3 K) (count : ℕ) (label : Label) (guess : ℕ → ℕ → K) (c M : K)
    (hc : 0 ≤ c) (hc1 : c < 1) (hM : 0 ≤ M) (hl : LabelsFor count label)
    (hlisted : ∀ i < p.cells, p.mm i < count) (hxs : ∀ m, ∀ o < p.groups, ∀ i < p.groups, 0 ≤ xs m o i)
    (hshape : boundary.angles = external.angles) (hcon : Contractive p xsTotal xs c) (phi : ℕ → ℕ → K)
    (psi : ℕ → ℕ → ℕ → K) (hsol : SolvesMultigroup p xsTotal xs external boundary phi psi)
    (hguess : ∀ i < p.cells, ∀ g < p.groups, |guess i g - phi i g| ≤ M) :
    ∃ flux passes, 1 ≤ passes ∧ passes ≤ 50 ∧
      mlSourceIteration p conv xsTotal xs external boundary count (fun _ => none) label guess = .ok flux ∧
      ∀ i < p.cells, ∀ g < p.groups, |flux i g - phi i g| ≤ c ^ passes * M := by
  obtain ⟨flux, n, h1, h2, h3, h4, _⟩ := surrogate_error_of (fun _ => True) p conv xsTotal xs xs external boundary count
    (fun _ => none) label guess c 0 M M hc hc1 le_rfl hM le_rfl (by rw [zero_div]; exact hM) hshape hcon phi psi hsol
    (placeholders_exact p xsTotal xs count label hl hlisted hxs phi M) trivial
    (fun _ _ _ _ => trivial) hguess
  exact ⟨flux, n, h1, h2, h3, fun i hi g hg => by have := h4 i hi g hg; rwa [zero_div, add_zero] at this⟩

/-! ### Examples -/

/-- Material 0 has a model that always predicts a flat spectrum, material 1 a placeholder. -/
def exModels : ℕ → Option (Predict ℚ) := fun nn => if nn = 0 then some fun _ _ _ _ => 1 else none

theorem exMlIdx : ∀ nn < 2, (nn ∈ [0] ↔ exModels nn ≠ none) := by
  intro nn hn
  obtain rfl | rfl : nn = 0 ∨ nn = 1 := by omega
  · simp [exModels]
  · simp [exModels]

theorem exMlData (a b : ℚ) (ha : 0 ≤ a) (hb : 0 ≤ b) : MlData exFine exTotal (fun m g _ => exTotal m g / 4)
    ⟨1, 1, fun _ _ _ => a⟩ ⟨1, 1, fun _ _ _ => b⟩ exModels where
  ok := exContractive.ok
  fine := exContractive.fine
  weights := exContractive.weights
  xs := fun m o _ i _ => by unfold exTotal; positivity
  external := fun _ _ _ _ _ _ => ha
  boundary := fun _ _ _ _ _ _ => hb
  rows := fun nn f hf n rows r _ => by
    unfold exModels at hf
    split_ifs at hf
    cases hf
    refine ⟨fun _ _ => zero_le_one, ?_⟩
    show (0 : ℚ) < ∑ g ∈ range 2, 1
    norm_num

theorem exMlListed : ∀ i < exFine.cells, exFine.mm i < 2 := fun i _ => by
  show (if i = 1 then 1 else 0) < 2
  split_ifs <;> omega

example := C155_surrogate_passes exFine (fun _ _ => false) exTotal (fun m g _ => exTotal m g / 4)
  ⟨1, 1, fun _ _ _ => 3⟩ ⟨1, 1, fun _ _ _ => 2⟩ 2 exModels .one (fun _ _ => 1) [0] trivial exMlIdx rfl
  (exMlData 3 2 (by norm_num) (by norm_num)) (fun _ _ _ _ => zero_le_one)

example := C155_surrogate_balance exFine (fun _ _ => false) exTotal (fun m g _ => exTotal m g / 4)
  ⟨1, 1, fun _ _ _ => 3⟩ ⟨1, 1, fun _ _ _ => 2⟩ 2 exModels .one (fun _ _ => 1) [0] trivial exMlIdx rfl
  (exMlData 3 2 (by norm_num) (by norm_num)) exContractive.norm (by show 0 < 2; omega) exMlListed
  (fun _ _ _ _ => zero_le_one)

/-- Without sources the solution is zero; the flat model is wrong by at most `sigma_t` for fluxes up to 2. -/
example := C156_surrogate_error exFine (fun _ _ => false) exTotal (fun m g _ => exTotal m g / 4)
  ⟨1, 1, fun _ _ _ => 0⟩ ⟨1, 1, fun _ _ _ => 0⟩ 2 exModels .one (fun _ _ => 1) [0] (1 / 2) 1 1 2 (by norm_num)
  (by norm_num) (by norm_num) (by norm_num) (by norm_num) (by norm_num) trivial exMlIdx rfl
  (exMlData 0 0 le_rfl le_rfl) exContractive (fun _ _ => 0) (fun _ _ _ => 0)
  ⟨fun g _ i _ => by simp [scalarCenter], fun g _ n _ i _ => by simp, fun g _ n _ => by simp [inflow, outflow]⟩
  (fun flux s h0 h1 hs i hi g hg => by
    have hb : ∀ g < 2, 0 ≤ flux i g ∧ flux i g ≤ 2 := fun g hg => by
      have := h1 i hi g hg
      rw [sub_zero, abs_of_nonneg (h0 i hi g hg)] at this
      exact ⟨h0 i hi g hg, this⟩
    have hT : 1 ≤ exTotal (exFine.mm i) g := by
      unfold exTotal
      have : (0 : ℚ) ≤ (exFine.mm i : ℚ) + g := by positivity
      linarith
    have hg : g < 2 := hg
    have b0 := hb 0 (by omega)
    have b1 := hb 1 (by omega)
    rcases hs.cell_cases hi with h | ⟨h, _⟩ | ⟨_, f, n, rows, r, hf, hr, h⟩
    · rw [h g hg, sub_self, abs_zero, one_mul]; linarith
    · have := exMlListed i hi; omega
    · unfold exModels at hf
      split_ifs at hf with hm
      cases hf
      have h2 := h g hg
      rw [hm] at h2 ⊢
      simp only [show exFine.groups = 2 from rfl, sum_range_succ, sum_range_zero, exTotal] at h2 ⊢
      have e : s i g = 3 / 8 * (flux i 0 + flux i 1) := by push_cast at h2; linarith
      rw [e, abs_le]
      obtain rfl | rfl : g = 0 ∨ g = 1 := by omega
      · push_cast; constructor <;> linarith
      · push_cast; constructor <;> linarith)
  (fun _ _ _ _ => zero_le_one) (fun _ _ _ _ => by norm_num)

example (phi : ℕ → ℕ → ℚ) (psi : ℕ → ℕ → ℕ → ℚ) := C156_placeholders exFine (fun _ _ => false) exTotal
  (fun m g _ => exTotal m g / 4) ⟨1, 1, fun _ _ _ => 3⟩ ⟨1, 1, fun _ _ _ => 2⟩ 2 .one phi (1 / 2) 0 (by norm_num)
  (by norm_num) le_rfl trivial exMlListed (fun m o _ i _ => by unfold exTotal; positivity) rfl exContractive phi psi

end Discrete1.Props
