import Verif.Lemmas.Angles
import Verif.Model.MultiGroup
import Mathlib.Algebra.BigOperators.Field
import Mathlib.Tactic.NormNum

/-!
# C08 - C15, C74, C75: slab sweeps and known-source calculations
-/

set_option linter.unusedSectionVars false
set_option linter.unusedSimpArgs false

namespace Discrete1.Props

open Finset Discrete1.Tools Discrete1.Spec Discrete1.Slab Discrete1.MultiGroup

variable {K : Type*} [Field K] [LinearOrder K] [IsStrictOrderedRing K]

/-! ## C08: the directional sweeps solve the diamond-difference equations -/

/-- C08: `slab_forward_iso`.  There is exactly one edge flux `psi` that starts at the given inflow and
balances every cell; the sweep returns its value at the right face and adds to `flux` the weighted
cell averages, or the weighted edge values when edges are requested; nothing else is written. -/
theorem C08_forward_iso (N : ℕ) (flux fluxOld xsTotal xsScatter offScatter external : ℕ → K)
    (e : K) (mm : ℕ → ℕ) (dx : ℕ → K) (mu w : K) (edges : Bool) (hmu : 0 < mu)
    (hphys : Physical N dx (fun i => xsTotal (mm i))) :
    ∃ psi : ℕ → K, psi 0 = e ∧
      CellBalance N mu dx (fun i => xsTotal (mm i))
        (fun i => xsScatter (mm i) * fluxOld i + external i + offScatter i) psi ∧
      (∀ psi' : ℕ → K, psi' 0 = e → CellBalance N mu dx (fun i => xsTotal (mm i))
        (fun i => xsScatter (mm i) * fluxOld i + external i + offScatter i) psi' →
        ∀ i ≤ N, psi' i = psi i) ∧
      ∃ flux', forwardIso N flux fluxOld xsTotal xsScatter offScatter external e mm dx mu w edges
          = (flux', psi N) ∧
        (edges = false → (∀ i < N, flux' i = flux i + w * ((psi i + psi (i + 1)) / 2)) ∧
          ∀ i, N ≤ i → flux' i = flux i) ∧
        (edges = true → (∀ i ≤ N, flux' i = flux i + w * psi i) ∧
          ∀ i, N < i → flux' i = flux i) := by
  obtain ⟨p, hp1, hp2, hp3, hp4⟩ := dir_spec (N := N) flux fluxOld xsTotal xsScatter offScatter external
    e mm dx mu w edges hmu.ne' hphys
  simp only [if_pos hmu, inflow, outflow] at hp2 hp3 hp4
  refine ⟨p, hp2, hp1, ?_, (forwardIso N flux fluxOld xsTotal xsScatter offScatter external e mm dx
    mu w edges).1, ?_, ?_, ?_⟩
  · intro p' h0 hb
    exact balance_unique hphys hmu.ne' hb hp1 (by simp only [inflow, if_pos hmu, h0, hp2])
  · rw [hp3]
  · intro he
    refine ⟨fun i hi => ?_, fun i hi => ?_⟩
    · rw [hp4 i]; simp [he, hi]
    · rw [hp4 i]; simp [he, not_lt.mpr hi]
  · intro he
    refine ⟨fun i hi => ?_, fun i hi => ?_⟩
    · rw [hp4 i]; simp [he, hi]
    · rw [hp4 i]; simp [he, not_le.mpr hi]

/-- C08: `slab_backward_iso`, particles enter at the right face. -/
theorem C08_backward_iso (N : ℕ) (flux fluxOld xsTotal xsScatter offScatter external : ℕ → K)
    (e : K) (mm : ℕ → ℕ) (dx : ℕ → K) (mu w : K) (edges : Bool) (hmu : mu < 0)
    (hphys : Physical N dx (fun i => xsTotal (mm i))) :
    ∃ psi : ℕ → K, psi N = e ∧
      CellBalance N mu dx (fun i => xsTotal (mm i))
        (fun i => xsScatter (mm i) * fluxOld i + external i + offScatter i) psi ∧
      (∀ psi' : ℕ → K, psi' N = e → CellBalance N mu dx (fun i => xsTotal (mm i))
        (fun i => xsScatter (mm i) * fluxOld i + external i + offScatter i) psi' →
        ∀ i ≤ N, psi' i = psi i) ∧
      ∃ flux', backwardIso N flux fluxOld xsTotal xsScatter offScatter external e mm dx mu w edges
          = (flux', psi 0) ∧
        (edges = false → (∀ i < N, flux' i = flux i + w * ((psi i + psi (i + 1)) / 2)) ∧
          ∀ i, N ≤ i → flux' i = flux i) ∧
        (edges = true → (∀ i ≤ N, flux' i = flux i + w * psi i) ∧
          ∀ i, N < i → flux' i = flux i) := by
  have hn : ¬ 0 < mu := not_lt.mpr hmu.le
  obtain ⟨p, hp1, hp2, hp3, hp4⟩ := dir_spec (N := N) flux fluxOld xsTotal xsScatter offScatter external
    e mm dx mu w edges hmu.ne hphys
  simp only [if_neg hn, inflow, outflow] at hp2 hp3 hp4
  refine ⟨p, hp2, hp1, ?_, (backwardIso N flux fluxOld xsTotal xsScatter offScatter external e mm dx
    mu w edges).1, ?_, ?_, ?_⟩
  · intro p' h0 hb
    exact balance_unique hphys hmu.ne hb hp1 (by simp only [inflow, if_neg hn, h0, hp2])
  · rw [hp3]
  · intro he
    refine ⟨fun i hi => ?_, fun i hi => ?_⟩
    · rw [hp4 i]; simp [he, hi]
    · rw [hp4 i]; simp [he, not_lt.mpr hi]
  · intro he
    refine ⟨fun i hi => ?_, fun i hi => ?_⟩
    · rw [hp4 i]; simp [he, hi]
    · rw [hp4 i]; simp [he, not_le.mpr hi]

/-- C08: one full pass of `slab_isotropic_sn` over all directions. -/
theorem C08_full_sweep {N A : ℕ} (xsTotal xsScatter offScatter : ℕ → K)
    (external boundary : Arr2 K) (mm : ℕ → ℕ) (dx mu w : ℕ → K) (bcL bcR edges : Bool)
    (fluxOld : ℕ → K) (hne : ∀ n < A, mu n ≠ 0)
    (hphys : Physical N dx (fun i => xsTotal (mm i))) :
    ∃ flux psi, isotropicSweep N A xsTotal xsScatter offScatter external boundary mm dx mu w bcL bcR
        edges fluxOld = .ok flux ∧
      AllBalanced N A mu dx (fun i => xsTotal (mm i))
        (fun n i => xsScatter (mm i) * fluxOld i + external.val i (bidx external.angles n)
          + offScatter i) psi ∧
      SweptInflow N A mu bcL bcR (fun n => boundary.val 0 (bidx boundary.angles n))
        (fun n => boundary.val 1 (bidx boundary.angles n)) psi ∧
      (edges = false → ∀ i < N, flux i = scalarCenter A w psi i) ∧
      (edges = true → ∀ i ≤ N, flux i = scalarEdge A w psi i) := by
  obtain ⟨flux, psi, h1, h2, h3, h4⟩ := isotropicSweep_spec xsTotal xsScatter offScatter external
    boundary mm dx mu w bcL bcR edges fluxOld hne hphys
  refine ⟨flux, psi, h1, h2, h3, fun he i hi => ?_, fun he i hi => ?_⟩
  · rw [h4 i]; simp [he, hi]
  · rw [h4 i]; simp [he, hi]

/-- C08: one full pass of `slab_anisotropic_sn`; the moments are the `P_weights` sums of cell averages. -/
theorem C08_full_sweep_aniso {N A L : ℕ} (xsTotal : ℕ → K) (xsW : ℕ → ℕ → K) (offScatter : ℕ → K)
    (external boundary : Arr2 K) (mm : ℕ → ℕ) (dx mu w : ℕ → K) (bcL bcR edges : Bool)
    (P PW : ℕ → ℕ → K) (old : (ℕ → K) × (ℕ → ℕ → K)) (hne : ∀ n < A, mu n ≠ 0)
    (hphys : Physical N dx (fun i => xsTotal (mm i))) :
    ∃ flux moments psi, anisotropicSweep N A L xsTotal xsW offScatter external boundary mm dx mu w
        bcL bcR edges P PW old = .ok (flux, moments) ∧
      AllBalanced N A mu dx (fun i => xsTotal (mm i))
        (fun n i => (∑ l ∈ range L, xsW i l * old.2 i l * P l n)
          + external.val i (bidx external.angles n) + offScatter i) psi ∧
      SweptInflow N A mu bcL bcR (fun n => boundary.val 0 (bidx boundary.angles n))
        (fun n => boundary.val 1 (bidx boundary.angles n)) psi ∧
      (edges = false → ∀ i < N, flux i = scalarCenter A w psi i) ∧
      (edges = true → ∀ i ≤ N, flux i = scalarEdge A w psi i) ∧
      ∀ i < N, ∀ l, moments i l = scalarCenter A (fun n => PW l n) psi i := by
  obtain ⟨flux, mo, psi, h1, h2, h3, h4, h5⟩ := anisotropicSweep_spec (L := L) xsTotal xsW offScatter
    external boundary mm dx mu w bcL bcR edges P PW old hne hphys
  refine ⟨flux, mo, psi, h1, h2, h3, fun he i hi => ?_, fun he i hi => ?_, h5⟩
  · rw [h4 i]; simp [he, hi]
  · rw [h4 i]; simp [he, hi]

/-- C08: one pass of `slab_scatter_source_sn` (the machine-learning solver's sweep), for boundary
arrays whose angle axis broadcasts like the external source's. -/
theorem C08_scatter_source {N A : ℕ} (xsTotal scatterSource : ℕ → K)
    (external boundary : Arr2 K) (mm : ℕ → ℕ) (dx mu w : ℕ → K) (bcL bcR : Bool)
    (hne : ∀ n < A, mu n ≠ 0) (hphys : Physical N dx (fun i => xsTotal (mm i)))
    (hshape : boundary.angles = external.angles) :
    ∃ flux psi, scatterSourceSn N A xsTotal scatterSource external boundary mm dx mu w bcL bcR
        = .ok flux ∧
      AllBalanced N A mu dx (fun i => xsTotal (mm i))
        (fun n i => scatterSource i + external.val i (bidx external.angles n)) psi ∧
      SweptInflow N A mu bcL bcR (fun n => boundary.val 0 (bidx boundary.angles n))
        (fun n => boundary.val 1 (bidx boundary.angles n)) psi ∧
      ∀ i < N, flux i = scalarCenter A w psi i := by
  obtain ⟨flux, psi, h1, h2, h3, h4⟩ := scatterSourceSn_spec xsTotal scatterSource external
    boundary mm dx mu w bcL bcR hne hphys
  refine ⟨flux, psi, h1, h2, by rw [hshape]; exact h3, fun i hi => ?_⟩
  rw [h4 i]; simp [hi]

/-- In a sweep order in which every direction leaving the left face precedes its mirror image, the
inflow rule of the sweep *is* the reflecting boundary condition at the left face. -/
theorem C08_left_reflection {N A : ℕ} {mu : ℕ → K} {bL bR : ℕ → K} {psi : ℕ → ℕ → K}
    (hsym : Symmetric A mu) (hord : ∀ n < A, 0 < mu n → A - 1 - n < n)
    (h : SweptInflow N A mu true false bL bR psi) :
    BoundaryConditions N A mu true false bL bR psi := by
  intro n hn
  have hm := hsym.mirror n hn
  refine ⟨fun hpos => ?_, fun hneg => ?_⟩
  · have := h n hn
    have hneg' : mu (A - 1 - n) < 0 := by rw [hm]; linarith
    simp only [inflow, if_pos hpos] at this
    rw [if_pos ⟨hord n hn hpos, Or.inr ⟨hneg', rfl⟩⟩] at this
    simp only [outflow, if_neg (not_lt.mpr hneg'.le)] at this
    rw [this, if_pos rfl]
  · have := h n hn
    have hpos' : ¬ mu (A - 1 - n) < 0 := by rw [hm]; linarith
    simp only [inflow, if_neg (not_lt.mpr hneg.le)] at this
    rw [if_neg (fun hc => by
      rcases hc.2 with h | h
      · exact absurd h.2 (by simp)
      · exact hpos' h.1)] at this
    rw [this]; simp

/-- Mirror statement for a reflecting right face (descending order). -/
theorem C08_right_reflection {N A : ℕ} {mu : ℕ → K} {bL bR : ℕ → K} {psi : ℕ → ℕ → K}
    (hsym : Symmetric A mu) (hord : ∀ n < A, mu n < 0 → A - 1 - n < n)
    (h : SweptInflow N A mu false true bL bR psi) :
    BoundaryConditions N A mu false true bL bR psi := by
  intro n hn
  have hm := hsym.mirror n hn
  refine ⟨fun hpos => ?_, fun hneg => ?_⟩
  · have := h n hn
    have hneg' : ¬ 0 < mu (A - 1 - n) := by rw [hm]; linarith
    simp only [inflow, if_pos hpos] at this
    rw [if_neg (fun hc => by
      rcases hc.2 with h | h
      · exact hneg' h.1
      · exact absurd h.2 (by simp))] at this
    rw [this]; simp
  · have := h n hn
    have hpos' : 0 < mu (A - 1 - n) := by rw [hm]; linarith
    simp only [inflow, if_neg (not_lt.mpr hneg.le)] at this
    rw [if_pos ⟨hord n hn hneg, Or.inl ⟨hpos', rfl⟩⟩] at this
    simp only [outflow, if_pos hpos'] at this
    rw [this, if_pos rfl]

/-! ### The known-source API: one angular flux explains all four outputs -/

/-- `psi` is the discrete angular flux of group `g` of a known-source problem: it balances every cell
in every direction against `source` and enters with `boundary` (plus reflection). -/
def KnownSolution (p : Problem K) (xsTotal : ℕ → ℕ → K) (source boundary : Arr3 K) (g : ℕ)
    (psi : ℕ → ℕ → K) : Prop :=
  AllBalanced p.cells p.angles p.angleX p.dx (fun i => xsTotal (p.mm i) g)
    (fun n i => source.val i (bidx source.angles n) (bidx source.groups g)) psi ∧
  SweptInflow p.cells p.angles p.angleX p.bcL p.bcR
    (fun n => boundary.val 0 (bidx boundary.angles n) (bidx boundary.groups g))
    (fun n => boundary.val 1 (bidx boundary.angles n) (bidx boundary.groups g)) psi

/-- The standing assumptions on a slab problem for group `g`. -/
structure SlabOk (p : Problem K) (xsTotal : ℕ → ℕ → K) (g : ℕ) : Prop where
  slab : p.geometry = 1
  nonzero : ∀ n < p.angles, p.angleX n ≠ 0
  phys : Physical p.cells p.dx (fun i => xsTotal (p.mm i) g)

theorem knownSolution_unique {p : Problem K} {xsTotal : ℕ → ℕ → K} {source boundary : Arr3 K} {g : ℕ}
    {psi psi' : ℕ → ℕ → K} (hok : SlabOk p xsTotal g)
    (h : KnownSolution p xsTotal source boundary g psi)
    (h' : KnownSolution p xsTotal source boundary g psi') :
    ∀ n < p.angles, ∀ i ≤ p.cells, psi n i = psi' n i :=
  swept_unique hok.nonzero hok.phys h.1 h'.1 h.2 h'.2

/-- C08 at the API: known-source calculations return the (unique) solution of the discrete equations:
angular centers/edges and scalar centers/edges are all read off the same `psi`. -/
theorem C08_known_source (p : Problem K) (xsTotal : ℕ → ℕ → K) (source boundary : Arr3 K) (g : ℕ)
    (hok : SlabOk p xsTotal g) (psi : ℕ → ℕ → K)
    (hpsi : KnownSolution p xsTotal source boundary g psi) :
    (∃ f, knownSourceScalar p xsTotal source boundary false = .ok f ∧
      ∀ i < p.cells, f i g = scalarCenter p.angles p.angleW psi i) ∧
    (∃ f, knownSourceScalar p xsTotal source boundary true = .ok f ∧
      ∀ i ≤ p.cells, f i g = scalarEdge p.angles p.angleW psi i) ∧
    (1 < p.angles → source.angles = p.angles →
      (∃ f, knownSourceAngular p xsTotal source boundary false = .ok f ∧
        ∀ n < p.angles, ∀ i < p.cells, f i n g = (psi n i + psi n (i + 1)) / 2) ∧
      (∃ f, knownSourceAngular p xsTotal source boundary true = .ok f ∧
        ∀ n < p.angles, ∀ i ≤ p.cells, f i n g = psi n i)) := by
  have scal : ∀ edges, ∃ f, knownSourceScalar p xsTotal source boundary edges = .ok f ∧
      Filled p.cells p.angles p.angleW edges psi (fun i => f i g) := by
    intro edges
    refine ⟨_, by unfold knownSourceScalar; rw [if_pos hok.slab], ?_⟩
    obtain ⟨psi', h1, h2, h3⟩ := knownSourceSn_scalar (fun m => xsTotal m g)
      (source.group (bidx source.groups g)) (boundary.group (bidx boundary.groups g)) p.mm p.dx
      p.angleX p.angleW p.bcL p.bcR edges hok.nonzero hok.phys
    have hu := knownSolution_unique hok hpsi ⟨h1, h2⟩
    intro i
    have := h3 i
    rw [this]
    cases edges
    · by_cases hi : i < p.cells
      · simp only [hi, if_true, Bool.false_eq_true, if_false]
        exact sum_congr rfl fun n hn => by
          rw [hu n (mem_range.mp hn) i hi.le, hu n (mem_range.mp hn) (i + 1) hi]
      · simp [hi]
    · by_cases hi : i ≤ p.cells
      · simp only [hi, if_true]
        exact sum_congr rfl fun n hn => by rw [hu n (mem_range.mp hn) i hi]
      · simp [hi]
  refine ⟨?_, ?_, ?_⟩
  · obtain ⟨f, h1, h2⟩ := scal false
    exact ⟨f, h1, fun i hi => by have := h2 i; simp only at this; rw [this]; simp [hi]⟩
  · obtain ⟨f, h1, h2⟩ := scal true
    exact ⟨f, h1, fun i hi => by have := h2 i; simp only at this; rw [this]; simp [hi]⟩
  · intro hA hs
    have ang : ∀ edges, ∃ f, knownSourceAngular p xsTotal source boundary edges = .ok f ∧
        ∀ n < p.angles, ∀ i, f i n g = if edges then (if i ≤ p.cells then psi n i else 0)
          else (if i < p.cells then (psi n i + psi n (i + 1)) / 2 else 0) := by
      intro edges
      refine ⟨_, by unfold knownSourceAngular; rw [if_pos hok.slab], ?_⟩
      obtain ⟨psi', h1, h2, h3⟩ := knownSourceSn_angular hA (fun m => xsTotal m g)
        (source.group (bidx source.groups g)) (boundary.group (bidx boundary.groups g)) p.mm p.dx
        p.angleX p.angleW p.bcL p.bcR edges hok.nonzero hok.phys
      have hu := knownSolution_unique hok hpsi ⟨h1, h2⟩
      intro n hn i
      rw [hs, h3 n hn i]
      cases edges
      · by_cases hi : i < p.cells
        · simp only [hi, if_true, Bool.false_eq_true, if_false]
          rw [hu n hn i hi.le, hu n hn (i + 1) hi]
        · simp [hi]
      · by_cases hi : i ≤ p.cells
        · simp only [hi, if_true]
          rw [hu n hn i hi]
        · simp [hi]
    constructor
    · obtain ⟨f, h1, h2⟩ := ang false
      exact ⟨f, h1, fun n hn i hi => by rw [h2 n hn i]; simp [hi]⟩
    · obtain ⟨f, h1, h2⟩ := ang true
      exact ⟨f, h1, fun n hn i hi => by rw [h2 n hn i]; simp [hi]⟩

/-- The solution exists for every source and boundary. -/
theorem C08_known_source_exists (p : Problem K) (xsTotal : ℕ → ℕ → K) (source boundary : Arr3 K)
    (g : ℕ) (hok : SlabOk p xsTotal g) : ∃ psi, KnownSolution p xsTotal source boundary g psi := by
  obtain ⟨psi', h1, h2, _⟩ := knownSourceSn_scalar (fun m => xsTotal m g)
      (source.group (bidx source.groups g)) (boundary.group (bidx boundary.groups g)) p.mm p.dx
      p.angleX p.angleW p.bcL p.bcR false hok.nonzero hok.phys
  exact ⟨psi', h1, h2⟩

/-! A concrete slab problem used by the examples: three cells, two materials, `S_4`-like symmetric
ordinates, ascending, left face reflecting. -/

/-- Example problem (3 cells, 4 angles, 2 groups). -/
def exProblem : Problem ℚ where
  cells := 3
  groups := 2
  angles := 4
  mm := fun i => if i = 1 then 1 else 0
  dx := fun i => (i : ℚ) + 1
  angleX := fun n => match n with | 0 => -3/4 | 1 => -1/4 | 2 => 1/4 | _ => 3/4
  angleW := fun _ => 1/4
  bcL := true
  bcR := false
  geometry := 1
  pi := 3
  convIn := fun _ _ => false
  convOut := fun _ _ => false

def exTotal : ℕ → ℕ → ℚ := fun m g => (m : ℚ) + g + 1

theorem exOk (g : ℕ) : SlabOk exProblem exTotal g where
  slab := rfl
  nonzero := by
    intro n hn
    have hn : n < 4 := hn
    rcases n with _ | _ | _ | _ | n <;> simp [exProblem] <;> omega
  phys := by
    intro i _
    refine ⟨?_, ?_⟩
    · show (0 : ℚ) < (i : ℚ) + 1
      positivity
    · show (0 : ℚ) ≤ exTotal (exProblem.mm i) g
      unfold exTotal; positivity

example (source boundary : Arr3 ℚ) : ∃ psi, KnownSolution exProblem exTotal source boundary 1 psi :=
  C08_known_source_exists _ _ _ _ _ (exOk 1)

/-! ## C09: global particle balance -/

/-- Telescoping of one direction. -/
theorem balance_total {N : ℕ} {mu : K} {dx sigma q psi : ℕ → K} (hdx : ∀ i < N, dx i ≠ 0)
    (h : CellBalance N mu dx sigma q psi) :
    mu * (psi N - psi 0) + ∑ i ∈ range N, sigma i * dx i * ((psi i + psi (i + 1)) / 2)
      = ∑ i ∈ range N, dx i * q i := by
  have e : ∀ i ∈ range N, dx i * q i
      = mu * (psi (i + 1) - psi i) + sigma i * dx i * ((psi i + psi (i + 1)) / 2) := by
    intro i hi
    rw [← h i (mem_range.mp hi)]
    have := hdx i (mem_range.mp hi)
    field_simp
  rw [sum_congr rfl e, sum_add_distrib, ← mul_sum, sum_range_sub]

/-- C09: net leakage through the two faces (from the angular edge output) plus the collision rate
(from the scalar center output) equals the total source, exactly. -/
theorem C09_global_balance (p : Problem K) (xsTotal : ℕ → ℕ → K) (source boundary : Arr3 K) (g : ℕ)
    (hok : SlabOk p xsTotal g) (hA : 1 < p.angles) (hs : source.angles = p.angles) :
    ∃ ang scal, knownSourceAngular p xsTotal source boundary true = .ok ang ∧
      knownSourceScalar p xsTotal source boundary false = .ok scal ∧
      (∑ n ∈ range p.angles, p.angleW n * p.angleX n * (ang p.cells n g - ang 0 n g))
        + ∑ i ∈ range p.cells, xsTotal (p.mm i) g * p.dx i * scal i g
      = ∑ i ∈ range p.cells, p.dx i *
          ∑ n ∈ range p.angles, p.angleW n * source.val i (bidx source.angles n) (bidx source.groups g) := by
  obtain ⟨psi, hpsi⟩ := C08_known_source_exists p xsTotal source boundary g hok
  obtain ⟨⟨sc, hsc, hsc'⟩, _, hang⟩ := C08_known_source p xsTotal source boundary g hok psi hpsi
  obtain ⟨_, ⟨an, han, han'⟩⟩ := hang hA hs
  refine ⟨an, sc, han, hsc, ?_⟩
  have e1 : ∀ n ∈ range p.angles, p.angleW n * p.angleX n * (an p.cells n g - an 0 n g)
      + ∑ i ∈ range p.cells, xsTotal (p.mm i) g * p.dx i * (p.angleW n * ((psi n i + psi n (i + 1)) / 2))
      = ∑ i ∈ range p.cells, p.dx i * (p.angleW n *
          source.val i (bidx source.angles n) (bidx source.groups g)) := by
    intro n hn
    have hn := mem_range.mp hn
    have := balance_total (fun i hi => (hok.phys i hi).1.ne') (hpsi.1 n hn)
    rw [han' n hn _ (le_refl _), han' n hn 0 (Nat.zero_le _)]
    have e2 := congrArg (fun x => p.angleW n * x) this
    simp only [mul_add, mul_sum] at e2
    rw [show p.angleW n * p.angleX n * (psi n p.cells - psi n 0)
      = p.angleW n * (p.angleX n * (psi n p.cells - psi n 0)) by ring]
    refine Eq.trans ?_ (e2.trans ?_)
    · congr 1
      exact sum_congr rfl fun i _ => by ring
    · exact sum_congr rfl fun i _ => by ring
  have e3 := sum_congr (s₁ := range p.angles) rfl e1
  rw [sum_add_distrib] at e3
  have e4 : ∑ i ∈ range p.cells, xsTotal (p.mm i) g * p.dx i * sc i g =
      ∑ n ∈ range p.angles, ∑ i ∈ range p.cells,
        xsTotal (p.mm i) g * p.dx i * (p.angleW n * ((psi n i + psi n (i + 1)) / 2)) := by
    rw [sum_comm]
    refine sum_congr rfl fun i hi => ?_
    rw [hsc' i (mem_range.mp hi), ← mul_sum]; rfl
  have e5 : ∑ i ∈ range p.cells, p.dx i * ∑ n ∈ range p.angles,
        p.angleW n * source.val i (bidx source.angles n) (bidx source.groups g) =
      ∑ n ∈ range p.angles, ∑ i ∈ range p.cells, p.dx i * (p.angleW n *
          source.val i (bidx source.angles n) (bidx source.groups g)) := by
    rw [sum_comm]
    exact sum_congr rfl fun i _ => by rw [mul_sum]
  rw [e4, e5, e3]

example (source boundary : Arr3 ℚ) (hs : source.angles = 4) : ∃ ang scal,
    knownSourceAngular exProblem exTotal source boundary true = .ok ang ∧
    knownSourceScalar exProblem exTotal source boundary false = .ok scal := by
  obtain ⟨a, s, h1, h2, _⟩ := C09_global_balance exProblem exTotal source boundary 0 (exOk 0)
    (by show 1 < 4; omega) hs
  exact ⟨a, s, h1, h2⟩

/-! ## C10 -/

/-- C10: scalar output = quadrature sum of the angular output (centers). -/
theorem C10_scalar_is_quadrature (p : Problem K) (xsTotal : ℕ → ℕ → K) (source boundary : Arr3 K)
    (g : ℕ) (hok : SlabOk p xsTotal g) (hA : 1 < p.angles) (hs : source.angles = p.angles) :
    (∃ ang scal, knownSourceAngular p xsTotal source boundary false = .ok ang ∧
      knownSourceScalar p xsTotal source boundary false = .ok scal ∧
      ∀ i < p.cells, scal i g = ∑ n ∈ range p.angles, p.angleW n * ang i n g) ∧
    (∃ ang scal, knownSourceAngular p xsTotal source boundary true = .ok ang ∧
      knownSourceScalar p xsTotal source boundary true = .ok scal ∧
      ∀ i ≤ p.cells, scal i g = ∑ n ∈ range p.angles, p.angleW n * ang i n g) := by
  obtain ⟨psi, hpsi⟩ := C08_known_source_exists p xsTotal source boundary g hok
  obtain ⟨⟨s0, hs0, hs0'⟩, ⟨s1, hs1, hs1'⟩, hang⟩ :=
    C08_known_source p xsTotal source boundary g hok psi hpsi
  obtain ⟨⟨a0, ha0, ha0'⟩, ⟨a1, ha1, ha1'⟩⟩ := hang hA hs
  refine ⟨⟨a0, s0, ha0, hs0, fun i hi => ?_⟩, ⟨a1, s1, ha1, hs1, fun i hi => ?_⟩⟩
  · rw [hs0' i hi]
    exact sum_congr rfl fun n hn => by rw [ha0' n (mem_range.mp hn) i hi]
  · rw [hs1' i hi]
    exact sum_congr rfl fun n hn => by rw [ha1' n (mem_range.mp hn) i hi]

/-! ## C11: linearity -/

/-- Linear combination of arrays of the same shape. -/
def lin (a b : K) (x y : Arr3 K) : Arr3 K := ⟨x.angles, x.groups, fun i n g => a * x.val i n g + b * y.val i n g⟩

theorem known_lin {p : Problem K} {xsTotal : ℕ → ℕ → K} {q1 q2 b1 b2 : Arr3 K} {g : ℕ}
    {psi1 psi2 : ℕ → ℕ → K} (hq : q1.angles = q2.angles ∧ q1.groups = q2.groups)
    (hb : b1.angles = b2.angles ∧ b1.groups = b2.groups) (a b : K)
    (h1 : KnownSolution p xsTotal q1 b1 g psi1) (h2 : KnownSolution p xsTotal q2 b2 g psi2) :
    KnownSolution p xsTotal (lin a b q1 q2) (lin a b b1 b2) g
      (fun n i => a * psi1 n i + b * psi2 n i) := by
  refine ⟨fun n hn i hi => ?_, fun n hn => ?_⟩
  · have e1 := h1.1 n hn i hi
    have e2 := h2.1 n hn i hi
    have : a * q1.val i (bidx q1.angles n) (bidx q1.groups g)
        + b * q2.val i (bidx q1.angles n) (bidx q1.groups g)
        = a * (p.angleX n * (psi1 n (i + 1) - psi1 n i) / p.dx i + xsTotal (p.mm i) g * ((psi1 n i + psi1 n (i + 1)) / 2))
        + b * (p.angleX n * (psi2 n (i + 1) - psi2 n i) / p.dx i + xsTotal (p.mm i) g * ((psi2 n i + psi2 n (i + 1)) / 2)) := by
      rw [e1, e2, hq.1, hq.2]
    refine Eq.trans ?_ this.symm
    ring
  · have e1 := h1.2 n hn
    have e2 := h2.2 n hn
    simp only [lin, inflow, outflow] at *
    rw [← hb.1, ← hb.2] at e2
    split_ifs at * <;> simp_all <;> ring

/-- C11: known-source calculations are linear in (source, boundary): scalar and angular, centers and
edges (`a q1 + b q2` includes sums and scalings). -/
theorem C11_linear (p : Problem K) (xsTotal : ℕ → ℕ → K) (q1 q2 b1 b2 : Arr3 K) (g : ℕ)
    (hok : SlabOk p xsTotal g) (hq : q1.angles = q2.angles ∧ q1.groups = q2.groups)
    (hb : b1.angles = b2.angles ∧ b1.groups = b2.groups) (a b : K) (edges : Bool) :
    (∃ f f1 f2, knownSourceScalar p xsTotal (lin a b q1 q2) (lin a b b1 b2) edges = .ok f ∧
      knownSourceScalar p xsTotal q1 b1 edges = .ok f1 ∧
      knownSourceScalar p xsTotal q2 b2 edges = .ok f2 ∧
      ∀ i < p.cells + (if edges then 1 else 0), f i g = a * f1 i g + b * f2 i g) ∧
    (1 < p.angles → q1.angles = p.angles →
      ∃ f f1 f2, knownSourceAngular p xsTotal (lin a b q1 q2) (lin a b b1 b2) edges = .ok f ∧
      knownSourceAngular p xsTotal q1 b1 edges = .ok f1 ∧
      knownSourceAngular p xsTotal q2 b2 edges = .ok f2 ∧
      ∀ n < p.angles, ∀ i < p.cells + (if edges then 1 else 0),
        f i n g = a * f1 i n g + b * f2 i n g) := by
  obtain ⟨psi1, h1⟩ := C08_known_source_exists p xsTotal q1 b1 g hok
  obtain ⟨psi2, h2⟩ := C08_known_source_exists p xsTotal q2 b2 g hok
  have h := known_lin hq hb a b h1 h2
  obtain ⟨⟨s, hs, hs'⟩, ⟨t, ht, ht'⟩, hang⟩ := C08_known_source p xsTotal _ _ g hok _ h
  obtain ⟨⟨s1, hs1, hs1'⟩, ⟨t1, ht1, ht1'⟩, hang1⟩ := C08_known_source p xsTotal _ _ g hok _ h1
  obtain ⟨⟨s2, hs2, hs2'⟩, ⟨t2, ht2, ht2'⟩, hang2⟩ := C08_known_source p xsTotal _ _ g hok _ h2
  refine ⟨?_, fun hA hs => ?_⟩
  · cases edges
    · refine ⟨s, s1, s2, hs, hs1, hs2, fun i hi => ?_⟩
      have hi : i < p.cells := by simpa using hi
      rw [hs' i hi, hs1' i hi, hs2' i hi]
      unfold scalarCenter
      rw [mul_sum, mul_sum, ← sum_add_distrib]
      exact sum_congr rfl fun n _ => by ring
    · refine ⟨t, t1, t2, ht, ht1, ht2, fun i hi => ?_⟩
      have hi : i ≤ p.cells := by simp at hi; omega
      rw [ht' i hi, ht1' i hi, ht2' i hi]
      unfold scalarEdge
      rw [mul_sum, mul_sum, ← sum_add_distrib]
      exact sum_congr rfl fun n _ => by ring
  · obtain ⟨⟨a0, ha0, ha0'⟩, ⟨a1, ha1, ha1'⟩⟩ := hang hA hs
    obtain ⟨⟨c0, hc0, hc0'⟩, ⟨c1, hc1, hc1'⟩⟩ := hang1 hA hs
    obtain ⟨⟨d0, hd0, hd0'⟩, ⟨d1, hd1, hd1'⟩⟩ := hang2 hA (hq.1 ▸ hs)
    cases edges
    · refine ⟨a0, c0, d0, ha0, hc0, hd0, fun n hn i hi => ?_⟩
      have hi : i < p.cells := by simpa using hi
      rw [ha0' n hn i hi, hc0' n hn i hi, hd0' n hn i hi]; ring
    · refine ⟨a1, c1, d1, ha1, hc1, hd1, fun n hn i hi => ?_⟩
      have hi : i ≤ p.cells := by simp at hi; omega
      rw [ha1' n hn i hi, hc1' n hn i hi, hd1' n hn i hi]

/-! ## C12: exact solutions are reproduced -/

/-- C12: uniform flux. If the source equals `sigma * c` in every cell and direction, and the inflow is
`c` at non-reflecting faces, then every output equals `c`. -/
theorem C12_uniform (p : Problem K) (xsTotal : ℕ → ℕ → K) (source boundary : Arr3 K) (g : ℕ) (c : K)
    (hok : SlabOk p xsTotal g) (hA : 1 < p.angles) (hs : source.angles = p.angles)
    (hL : p.bcL = false) (hR : p.bcR = false)
    (hq : ∀ i < p.cells, ∀ n < p.angles,
      source.val i (bidx source.angles n) (bidx source.groups g) = xsTotal (p.mm i) g * c)
    (hbL : ∀ n < p.angles, 0 < p.angleX n →
      boundary.val 0 (bidx boundary.angles n) (bidx boundary.groups g) = c)
    (hbR : ∀ n < p.angles, p.angleX n < 0 →
      boundary.val 1 (bidx boundary.angles n) (bidx boundary.groups g) = c) :
    (∃ f, knownSourceAngular p xsTotal source boundary false = .ok f ∧
      ∀ n < p.angles, ∀ i < p.cells, f i n g = c) ∧
    (∃ f, knownSourceAngular p xsTotal source boundary true = .ok f ∧
      ∀ n < p.angles, ∀ i ≤ p.cells, f i n g = c) := by
  have hsol : KnownSolution p xsTotal source boundary g (fun _ _ => c) := by
    refine ⟨fun n hn i hi => ?_, fun n hn => ?_⟩
    · beta_reduce; rw [hq i hi n hn]; ring
    · have hz : ¬ (p.angles - 1 - n < n ∧
          leavesReflecting p.bcL p.bcR (p.angleX (p.angles - 1 - n))) := by
        simp [leavesReflecting, hL, hR]
      simp only [if_neg hz, add_zero, inflow]
      rcases lt_or_gt_of_ne (hok.nonzero n hn) with h | h
      · simp only [if_neg (not_lt.mpr h.le)]; exact (hbR n hn h).symm
      · simp only [if_pos h]; exact (hbL n hn h).symm
  obtain ⟨_, _, hang⟩ := C08_known_source p xsTotal source boundary g hok _ hsol
  obtain ⟨⟨a0, ha0, ha0'⟩, ⟨a1, ha1, ha1'⟩⟩ := hang hA hs
  refine ⟨⟨a0, ha0, fun n hn i hi => ?_⟩, ⟨a1, ha1, fun n hn i hi => ha1' n hn i hi⟩⟩
  rw [ha0' n hn i hi]; ring

/-- C12: linear flux. For cell edges at `x i` (`dx i = x (i+1) - x i`), any angular flux that is linear
in `x` and satisfies the *continuous* transport equation with sources given by cell averages is
returned exactly at every edge. -/
theorem C12_linear_in_x (p : Problem K) (xsTotal : ℕ → ℕ → K) (source boundary : Arr3 K) (g : ℕ)
    (x : ℕ → K) (a s : ℕ → K) (hx : ∀ i < p.cells, p.dx i = x (i + 1) - x i)
    (hok : SlabOk p xsTotal g) (hA : 1 < p.angles) (hs : source.angles = p.angles)
    (hL : p.bcL = false) (hR : p.bcR = false)
    (hq : ∀ i < p.cells, ∀ n < p.angles,
      source.val i (bidx source.angles n) (bidx source.groups g)
        = p.angleX n * s n + xsTotal (p.mm i) g * (a n + s n * ((x i + x (i + 1)) / 2)))
    (hbL : ∀ n < p.angles, 0 < p.angleX n →
      boundary.val 0 (bidx boundary.angles n) (bidx boundary.groups g) = a n + s n * x 0)
    (hbR : ∀ n < p.angles, p.angleX n < 0 →
      boundary.val 1 (bidx boundary.angles n) (bidx boundary.groups g) = a n + s n * x p.cells) :
    ∃ f, knownSourceAngular p xsTotal source boundary true = .ok f ∧
      ∀ n < p.angles, ∀ i ≤ p.cells, f i n g = a n + s n * x i := by
  have hsol : KnownSolution p xsTotal source boundary g (fun n i => a n + s n * x i) := by
    refine ⟨fun n hn i hi => ?_, fun n hn => ?_⟩
    · beta_reduce
      rw [hq i hi n hn]
      have h0 := (hok.phys i hi).1.ne'
      have h1 : a n + s n * x (i + 1) - (a n + s n * x i) = s n * p.dx i := by rw [hx i hi]; ring
      rw [h1, ← mul_assoc, mul_div_cancel_right₀ _ h0]
      ring
    · have hz : ¬ (p.angles - 1 - n < n ∧
          leavesReflecting p.bcL p.bcR (p.angleX (p.angles - 1 - n))) := by
        simp [leavesReflecting, hL, hR]
      simp only [if_neg hz, add_zero, inflow]
      rcases lt_or_gt_of_ne (hok.nonzero n hn) with h | h
      · simp only [if_neg (not_lt.mpr h.le)]; exact (hbR n hn h).symm
      · simp only [if_pos h]; exact (hbL n hn h).symm
  obtain ⟨_, _, hang⟩ := C08_known_source p xsTotal source boundary g hok _ hsol
  obtain ⟨_, ⟨a1, ha1, ha1'⟩⟩ := hang hA hs
  exact ⟨a1, ha1, ha1'⟩

-- a vacuum-boundary version of the example problem meets the hypotheses of C12_uniform
example : ∃ f, knownSourceAngular { exProblem with bcL := false } exTotal
    ⟨4, 1, fun i _ _ => exTotal (exProblem.mm i) 0 * 5⟩ ⟨1, 1, fun _ _ _ => 5⟩ false = .ok f ∧
    ∀ n < 4, ∀ i < 3, f i n 0 = 5 :=
  (C12_uniform { exProblem with bcL := false } exTotal _ _ 0 5
    ⟨rfl, (exOk 0).nonzero, (exOk 0).phys⟩ (by show 1 < 4; omega) rfl rfl rfl
    (fun _ _ _ _ => rfl) (fun _ _ _ => rfl) (fun _ _ _ => rfl)).1

/-! ## C13 -/

/-- C13: centers output = mean of the two neighbouring edge outputs, scalar and angular. -/
theorem C13_centers_are_edge_means (p : Problem K) (xsTotal : ℕ → ℕ → K) (source boundary : Arr3 K)
    (g : ℕ) (hok : SlabOk p xsTotal g) :
    (∃ c e, knownSourceScalar p xsTotal source boundary false = .ok c ∧
      knownSourceScalar p xsTotal source boundary true = .ok e ∧
      ∀ i < p.cells, c i g = (e i g + e (i + 1) g) / 2) ∧
    (1 < p.angles → source.angles = p.angles →
      ∃ c e, knownSourceAngular p xsTotal source boundary false = .ok c ∧
      knownSourceAngular p xsTotal source boundary true = .ok e ∧
      ∀ n < p.angles, ∀ i < p.cells, c i n g = (e i n g + e (i + 1) n g) / 2) := by
  obtain ⟨psi, hpsi⟩ := C08_known_source_exists p xsTotal source boundary g hok
  obtain ⟨⟨s, hs, hs'⟩, ⟨t, ht, ht'⟩, hang⟩ := C08_known_source p xsTotal source boundary g hok psi hpsi
  refine ⟨⟨s, t, hs, ht, fun i hi => ?_⟩, fun hA hsh => ?_⟩
  · rw [hs' i hi, ht' i hi.le, ht' (i + 1) hi]
    unfold scalarCenter scalarEdge
    rw [← sum_add_distrib, sum_div]
    exact sum_congr rfl fun n _ => by ring
  · obtain ⟨⟨a0, ha0, ha0'⟩, ⟨a1, ha1, ha1'⟩⟩ := hang hA hsh
    refine ⟨a0, a1, ha0, ha1, fun n hn i hi => ?_⟩
    rw [ha0' n hn i hi, ha1' n hn i hi.le, ha1' n hn (i + 1) hi]

end Discrete1.Props
