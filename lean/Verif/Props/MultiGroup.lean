import Verif.Lemmas.Multi
import Verif.Model.Buffers

/-!
# C20 - C23, C29, C30, C74 (multigroup)
-/

set_option linter.unusedSectionVars false
set_option linter.unusedSimpArgs false

namespace Discrete1.Props

open Finset Discrete1.Tools Discrete1.Spec Discrete1.Slab Discrete1.MultiGroup Discrete1.Buffers

variable {K : Type*} [Field K] [LinearOrder K] [IsStrictOrderedRing K]

/-! ## C20 -/

/-- C20: the off-group source is the sum over all other groups, each once, of `xs[g, og]` times the
newest available flux; adding the within-group term gives the whole row. -/
theorem C20_off_scatter_complete (G : ℕ) (flux old : ℕ → ℕ → K) (mm : ℕ → ℕ)
    (xs : ℕ → ℕ → ℕ → K) (g : ℕ) (hg : g < G) (i : ℕ) :
    offScatter G flux old mm xs g i
      = ∑ og ∈ (range G).erase g, xs (mm i) g og * (if og < g then flux i og else old i og) ∧
    (∀ phi : ℕ → K, (∀ og < G, (if og < g then flux i og else if g < og then old i og else phi og) = phi og) →
      xs (mm i) g g * phi g + offScatter G flux old mm xs g i
        = ∑ og ∈ range G, xs (mm i) g og * phi og) := by
  refine ⟨offScatter_eq G flux old mm xs hg i, fun phi hphi => ?_⟩
  rw [offScatter_eq G flux old mm xs hg i, ← add_sum_erase _ _ (mem_range.mpr hg)]
  congr 1
  refine sum_congr rfl fun og hog => ?_
  have h1 := (mem_erase.mp hog).1
  have h2 := hphi og (mem_range.mp (mem_erase.mp hog).2)
  by_cases h : og < g
  · rw [if_pos h] at h2 ⊢; rw [h2]
  · rw [if_neg h] at h2 ⊢
    rw [if_pos (by omega)] at h2; rw [h2]

/-- C20 for the zero-dimensional solver. -/
theorem C20_off_scatter_0d (G : ℕ) (flux old : ℕ → K) (xs : ℕ → ℕ → K) (g : ℕ) (hg : g < G) :
    offScatter0d G flux old xs g
      = ∑ og ∈ (range G).erase g, xs g og * (if og < g then flux og else old og) :=
  offScatter_eq G (fun _ => flux) (fun _ => old) id (fun _ => xs) hg 0

/-! ## C21 -/

/-- C21: source iteration on a slab makes between 1 and 100 sweeps, returns the last, and stops early
exactly when the criterion held. -/
theorem C21_source_iteration_stops (p : Problem K) (xsTotal : ℕ → ℕ → K) (xs : ℕ → ℕ → ℕ → K)
    (external boundary : Arr3 K) (fluxOld : ℕ → ℕ → K) (hok : ∀ g < p.groups, SlabOk p xsTotal g) :
    ∃ (x : ℕ → ℕ → ℕ → K) (sweeps : ℕ), 1 ≤ sweeps ∧ sweeps ≤ 100 ∧ x 0 = fluxOld ∧
      (∀ j < sweeps, oneSweepIso p xsTotal xs external boundary (x j) = .ok (x (j + 1))) ∧
      sourceIteration p xsTotal (.iso xs) external boundary fluxOld = .ok (x sweeps) ∧
      (sweeps < 100 → p.convOut (x sweeps) (x (sweeps - 1)) = true) ∧
      (∀ j, 1 ≤ j → j < sweeps → p.convOut (x j) (x (j - 1)) = false) := by
  obtain ⟨x, k, hk, hx0, hstep, _, he, hconv, hno⟩ := iterateE_spec
    (oneSweepIso p xsTotal xs external boundary) p.convOut (fun _ => True) (fun a _ => by
      obtain ⟨f, h, _⟩ := oneSweepIso_spec p xsTotal xs external boundary a hok
      exact ⟨f, h, trivial⟩) 99 fluxOld trivial
  refine ⟨x, k + 1, by omega, by omega, hx0, fun j hj => hstep j (by omega), he,
    fun h => hconv (by omega), fun j h1 h2 => ?_⟩
  obtain ⟨j, rfl⟩ : ∃ i, j = i + 1 := ⟨j - 1, by omega⟩
  exact hno j (by omega)

/-- C21 for anisotropic scattering. -/
theorem C21_source_iteration_stops_aniso (p : Problem K) (L : ℕ) (xsTotal : ℕ → ℕ → K)
    (xs : ℕ → ℕ → ℕ → ℕ → K)
    (external boundary : Arr3 K) (fluxOld : ℕ → ℕ → K) (hok : ∀ g < p.groups, SlabOk p xsTotal g) :
    ∃ (x : ℕ → ℕ → ℕ → K) (sweeps : ℕ), 1 ≤ sweeps ∧ sweeps ≤ 100 ∧ x 0 = fluxOld ∧
      (∀ j < sweeps, oneSweepAniso p L xsTotal xs external boundary
        (fun l nn => legendre (p.angleX nn) l) (fun l nn => p.angleW nn * legendre (p.angleX nn) l)
        (x j) = .ok (x (j + 1))) ∧
      sourceIteration p xsTotal (.aniso L xs) external boundary fluxOld = .ok (x sweeps) ∧
      (sweeps < 100 → p.convOut (x sweeps) (x (sweeps - 1)) = true) ∧
      (∀ j, 1 ≤ j → j < sweeps → p.convOut (x j) (x (j - 1)) = false) := by
  obtain ⟨x, k, hk, hx0, hstep, _, he, hconv, hno⟩ := iterateE_spec
    (oneSweepAniso p L xsTotal xs external boundary (fun l nn => legendre (p.angleX nn) l)
      (fun l nn => p.angleW nn * legendre (p.angleX nn) l)) p.convOut (fun _ => True) (fun a _ => by
      obtain ⟨f, h, _⟩ := loopE_inv (fun _ (_ : ℕ → ℕ → K) => True) p.groups
        (groupStepAniso p L xsTotal xs external boundary (fun l nn => legendre (p.angleX nn) l)
          (fun l nn => p.angleW nn * legendre (p.angleX nn) l) a) (fun _ _ => 0) trivial
        (fun g hg f _ => by
          obtain ⟨y, s, _, _, _, _, hy, _⟩ := C18_within_group_stops_aniso (N := p.cells) (A := p.angles)
            (L := L) p.convIn (fun m => xsTotal m g)
            (fun ii l => xs (p.mm ii) g g l * (2 * (l : K) + 1))
            (offScatter p.groups f a p.mm (fun m o i => xs m o i 0) g)
            (external.group (bidx external.groups g)) (boundary.group (bidx boundary.groups g)) p.mm
            p.dx p.angleX p.angleW p.bcL p.bcR false (fun l nn => legendre (p.angleX nn) l)
            (fun l nn => p.angleW nn * legendre (p.angleX nn) l) (fun i => a i g)
            (hok g hg).nonzero (hok g hg).phys
          refine ⟨putCol f g (y s).1, ?_, trivial⟩
          unfold groupStepAniso
          simp only [(hok g hg).slab, if_true]
          rw [hy]; rfl)
      exact ⟨f, h, trivial⟩) 99 fluxOld trivial
  refine ⟨x, k + 1, by omega, by omega, hx0, fun j hj => hstep j (by omega), he,
    fun h => hconv (by omega), fun j h1 h2 => ?_⟩
  obtain ⟨j, rfl⟩ : ∃ i, j = i + 1 := ⟨j - 1, by omega⟩
  exact hno j (by omega)

example : ∃ f, sourceIteration exProblem exTotal (.iso fun _ _ _ => 1) ⟨1, 1, fun _ _ _ => 1⟩
    ⟨1, 1, fun _ _ _ => 0⟩ (fun _ _ => 0) = .ok f := by
  obtain ⟨x, s, _, _, _, _, h, _⟩ := C21_source_iteration_stops exProblem exTotal (fun _ _ _ => 1)
    ⟨1, 1, fun _ _ _ => 1⟩ ⟨1, 1, fun _ _ _ => 0⟩ (fun _ _ => 0) (fun g _ => exOk g)
  exact ⟨_, h⟩

/-! ### Buffers -/

/-- Sweeping into an array different from the one being read is the functional sweep. -/
theorem sweepInto_eq (G : ℕ) (step : (ℕ → ℕ → K) → ℕ → (ℕ → ℕ → K) → Except PyErr (ℕ → ℕ → K))
    (flux old : ℕ) (hne : flux ≠ old) (h : Heap K) :
    sweepInto G step flux old h
      = (loopE G (step (h old)) (fun _ _ => 0)).map (Function.update h flux) := by
  unfold sweepInto
  have key : ∀ n, loopE n (fun gg h => (step (h old) gg (h flux)).map (Function.update h flux))
      (Function.update h flux fun _ _ => 0)
      = (loopE n (step (h old)) (fun _ _ => 0)).map (Function.update h flux) := by
    intro n
    induction n with
    | zero => rfl
    | succ n ih =>
      rw [loopE_succ, loopE_succ, ih]
      cases hl : loopE n (step (h old)) (fun _ _ => 0) with
      | error e => rfl
      | ok v =>
        simp only [Except.map, Function.update_self, Function.update_of_ne hne.symm]
        cases step (h old) n v with
        | error e => rfl
        | ok v' => simp only [Function.update_idem]
  exact key G

/-- C21 (no aliasing): running source iteration on buffers with `flux_old` in array 0 returns the same
answer as the functional model and leaves the caller's array 0 as it was; the returned array is a
different one.  Holds for isotropic and anisotropic sweeps alike (any group step). -/
theorem C21_initial_guess_untouched (G : ℕ)
    (step : (ℕ → ℕ → K) → ℕ → (ℕ → ℕ → K) → Except PyErr (ℕ → ℕ → K))
    (conv : (ℕ → ℕ → K) → (ℕ → ℕ → K) → Bool) (h : Heap K) :
    (∀ e, iterateE (fun old => loopE G (step old) (fun _ _ => 0)) conv 99 (h 0) = .error e →
      sourceIterationBuf G step conv h = .error e) ∧
    (∀ f, iterateE (fun old => loopE G (step old) (fun _ _ => 0)) conv 99 (h 0) = .ok f →
      ∃ h' r, sourceIterationBuf G step conv h = .ok (h', r) ∧ h' r = f ∧ r ≠ 0 ∧ h' 0 = h 0) := by
  have key : ∀ (left old next : ℕ) (H : Heap K), old ≠ 1 → 1 < next →
      (old = 0 ∨ old ≠ 0) →
      (∀ e, iterateE (fun old => loopE G (step old) (fun _ _ => 0)) conv left (H old) = .error e →
        sourceIterationLoop G step conv 1 left old next H = .error e) ∧
      (∀ f, iterateE (fun old => loopE G (step old) (fun _ _ => 0)) conv left (H old) = .ok f →
        ∃ h', sourceIterationLoop G step conv 1 left old next H = .ok (h', 1) ∧ h' 1 = f ∧
          h' 0 = H 0) := by
    intro left
    induction left with
    | zero =>
      intro old next H h1 h2 _
      unfold iterateE sourceIterationLoop
      rw [sweepInto_eq G step 1 old (Ne.symm h1) H]
      constructor
      · intro e he; rw [he]; rfl
      · intro f hf
        rw [hf]
        refine ⟨_, rfl, ?_, ?_⟩
        · simp [show (1 : ℕ) ≠ next by omega]
        · simp [show (0 : ℕ) ≠ next by omega]
    | succ left ih =>
      intro old next H h1 h2 _
      unfold iterateE sourceIterationLoop
      rw [sweepInto_eq G step 1 old (Ne.symm h1) H]
      cases hs : loopE G (step (H old)) (fun _ _ => 0) with
      | error e' =>
        refine ⟨fun e he => ?_, fun f hf => ?_⟩
        · have : e' = e := by simpa using he
          subst this; rfl
        · exact absurd hf (by simp)
      | ok v =>
        simp only [Except.map, Function.update_self, Function.update_of_ne h1]
        by_cases hc : conv v (H old) = true
        · simp only [hc, if_true]
          refine ⟨fun e he => absurd he (by simp), fun f hf => ?_⟩
          have hf : v = f := by simpa using hf
          subst hf
          refine ⟨_, rfl, ?_, ?_⟩
          · simp [show (1 : ℕ) ≠ next by omega]
          · simp [show (0 : ℕ) ≠ next by omega]
        · simp only [hc, if_false]
          have hi := ih next (next + 1)
            (Function.update (Function.update H 1 v) next v) (by omega) (by omega) (by omega)
          simp only [Function.update_self] at hi
          refine ⟨hi.1, fun f hf => ?_⟩
          obtain ⟨h', a, b, c⟩ := hi.2 f hf
          refine ⟨h', a, b, ?_⟩
          rw [c]
          simp [show (0 : ℕ) ≠ next by omega]
  have h0 := key 99 0 2 (Function.update h 1 fun _ _ => 0) (by omega) (by omega) (Or.inl rfl)
  simp only [Function.update_of_ne (show (0 : ℕ) ≠ 1 by omega)] at h0
  refine ⟨h0.1, fun f hf => ?_⟩
  obtain ⟨h', a, b, c⟩ := h0.2 f hf
  exact ⟨h', 1, a, b, by omega, c⟩

/-! ## C22 -/

/-- The full discrete multigroup transport equation with isotropic scattering `xs` for scalar flux
`phi` and angular fluxes `psi g n i`. -/
structure SolvesMultigroup (p : Problem K) (xsTotal : ℕ → ℕ → K) (xs : ℕ → ℕ → ℕ → K)
    (external boundary : Arr3 K) (phi : ℕ → ℕ → K) (psi : ℕ → ℕ → ℕ → K) : Prop where
  scalar : ∀ g < p.groups, ∀ i < p.cells, phi i g = scalarCenter p.angles p.angleW (psi g) i
  balance : ∀ g < p.groups, AllBalanced p.cells p.angles p.angleX p.dx (fun i => xsTotal (p.mm i) g)
    (fun n i => (∑ og ∈ range p.groups, xs (p.mm i) g og * phi i og)
      + external.val i (bidx external.angles n) (bidx external.groups g)) (psi g)
  inflow : ∀ g < p.groups, SweptInflow p.cells p.angles p.angleX p.bcL p.bcR
    (fun n => boundary.val 0 (bidx boundary.angles n) (bidx boundary.groups g))
    (fun n => boundary.val 1 (bidx boundary.angles n) (bidx boundary.groups g)) (psi g)

/-- C22: if neither a within-group sweep in any group nor (hence) an outer sweep changes `phi`, then
`phi` solves the full multigroup equation. -/
theorem C22_fixed_point_solves (p : Problem K) (xsTotal : ℕ → ℕ → K) (xs : ℕ → ℕ → ℕ → K)
    (external boundary : Arr3 K) (phi : ℕ → ℕ → K) (hok : ∀ g < p.groups, SlabOk p xsTotal g)
    (hfix : ∀ g < p.groups, ∃ f, isotropicSweep p.cells p.angles (fun m => xsTotal m g)
      (fun m => xs m g g) (offScatter p.groups phi phi p.mm xs g)
      (external.group (bidx external.groups g)) (boundary.group (bidx boundary.groups g)) p.mm p.dx
      p.angleX p.angleW p.bcL p.bcR false (fun i => phi i g) = .ok f ∧ ∀ i < p.cells, f i = phi i g) :
    ∃ psi, SolvesMultigroup p xsTotal xs external boundary phi psi := by
  have h := fun g (hg : g < p.groups) => C19_fixed_point_solves (N := p.cells) (A := p.angles)
    (fun m => xsTotal m g) (fun m => xs m g g) (offScatter p.groups phi phi p.mm xs g)
    (external.group (bidx external.groups g)) (boundary.group (bidx boundary.groups g)) p.mm p.dx
    p.angleX p.angleW p.bcL p.bcR (fun i => phi i g) (hok g hg).nonzero (hok g hg).phys (hfix g hg)
  choose psi h1 h2 h3 using h
  refine ⟨fun g => if hg : g < p.groups then psi g hg else fun _ _ => 0, ?_, ?_, ?_⟩
  · intro g hg; simp only [hg, dif_pos]; exact h1 g hg
  · intro g hg n hn i hi
    have := h2 g hg n hn i hi
    simp only [hg, dif_pos, Arr3.group] at this ⊢
    rw [this, offScatter_eq _ _ _ _ _ hg, ← add_sum_erase _ _ (mem_range.mpr hg)]
    simp only [ite_self]
    ring
  · intro g hg; simp only [hg, dif_pos]; exact h3 g hg

/-- Data of a source iteration on a mesh where one sweep is a contraction: fine mesh, normalised
non-negative weights, non-negative transfer cross sections whose rows are bounded by `c sigma_t`. -/
structure Contractive (p : Problem K) (xsTotal : ℕ → ℕ → K) (xs : ℕ → ℕ → ℕ → K) (c : K) : Prop where
  ok : ∀ g < p.groups, SlabOk p xsTotal g
  fine : ∀ g < p.groups, ∀ n < p.angles,
    FineFor p.cells (p.angleX n) p.dx (fun i => xsTotal (p.mm i) g)
  weights : ∀ n < p.angles, 0 ≤ p.angleW n
  norm : ∑ n ∈ range p.angles, p.angleW n = 1
  nonneg : ∀ i < p.cells, ∀ g < p.groups, ∀ g' < p.groups, 0 ≤ xs (p.mm i) g g'
  rows : ∀ i < p.cells, ∀ g < p.groups,
    ∑ g' ∈ range p.groups, xs (p.mm i) g g' ≤ c * xsTotal (p.mm i) g

theorem Contractive.self {p : Problem K} {xsTotal : ℕ → ℕ → K} {xs : ℕ → ℕ → ℕ → K} {c : K}
    (h : Contractive p xsTotal xs c) {g : ℕ} (hg : g < p.groups) :
    ∀ i < p.cells, 0 ≤ xs (p.mm i) g g ∧ xs (p.mm i) g g ≤ c * xsTotal (p.mm i) g := fun i hi =>
  ⟨h.nonneg i hi g hg g hg, (single_le_sum (f := fun g' => xs (p.mm i) g g')
    (fun g' hg' => h.nonneg i hi g hg g' (mem_range.mp hg')) (mem_range.mpr hg)).trans (h.rows i hi g hg)⟩

/-- An iteration of a strict contraction that returns to its start never moved. -/
theorem cyclic_fixed {N : ℕ} {c : K} (hc : 0 ≤ c) (hc1 : c < 1) (x : ℕ → ℕ → K) (s : ℕ) (hs : 1 ≤ s)
    (y : ℕ → K) (hstep : ∀ j < s, ∀ M, 0 ≤ M → (∀ i < N, |x j i - x (j + 1) i| ≤ M) →
      ∀ i < N, |x (j + 1) i - (if j + 1 < s then x (j + 2) i else y i)| ≤ c * M)
    (hy : ∀ i < N, x s i = x 0 i) (hxy : ∀ i < N, y i = x 1 i) : ∀ i < N, x 1 i = x 0 i := by
  intro i hi
  obtain ⟨m, hm, hmax⟩ := (range N).exists_max_image (fun j => |x 0 j - x 1 j|) ⟨i, mem_range.mpr hi⟩
  set M := |x 0 m - x 1 m| with hM
  have hM0 : 0 ≤ M := abs_nonneg _
  have key : ∀ j < s, ∀ i < N, |x j i - x (j + 1) i| ≤ c ^ j * M := by
    intro j
    induction j with
    | zero => intro _ i hi; rw [pow_zero, one_mul]; exact hmax i (mem_range.mpr hi)
    | succ j ih =>
      intro hj i hi
      have := hstep j (by omega) (c ^ j * M) (mul_nonneg (pow_nonneg hc j) hM0) (ih (by omega)) i hi
      rw [if_pos hj] at this
      rw [pow_succ, mul_comm (c ^ j) c, mul_assoc]; exact this
  obtain ⟨s', rfl⟩ : ∃ s', s = s' + 1 := ⟨s - 1, by omega⟩
  have hlast := hstep s' (by omega) (c ^ s' * M) (mul_nonneg (pow_nonneg hc s') hM0)
    (key s' (by omega)) m (mem_range.mp hm)
  rw [if_neg (by omega), hy m (mem_range.mp hm), hxy m (mem_range.mp hm)] at hlast
  have hpow : c * (c ^ s' * M) ≤ c * M := by
    refine mul_le_mul_of_nonneg_left ?_ hc
    calc c ^ s' * M ≤ 1 * M := mul_le_mul_of_nonneg_right (pow_le_one₀ hc hc1.le) hM0
      _ = M := one_mul M
  have : M ≤ c * M := by
    have h1 : |x 0 m - x 1 m| ≤ c * (c ^ s' * M) := hlast
    rw [← hM] at h1
    linarith
  have hMz : M ≤ 0 := by
    by_contra hpos
    push Not at hpos
    nlinarith
  have := (hmax i (mem_range.mpr hi)).trans hMz
  exact (sub_eq_zero.mp (abs_nonpos_iff.mp this)).symm

/-- C22: on a contractive problem (`c < 1`) it is enough that one more *outer* sweep, with all its
within-group iterations, leaves the flux unchanged. -/
theorem C22_outer_fixed_point_solves (p : Problem K) (xsTotal : ℕ → ℕ → K) (xs : ℕ → ℕ → ℕ → K)
    (external boundary : Arr3 K) (phi : ℕ → ℕ → K) (c : K) (hc : 0 ≤ c) (hc1 : c < 1)
    (hcon : Contractive p xsTotal xs c)
    (hfix : ∃ f, oneSweepIso p xsTotal xs external boundary phi = .ok f ∧
      ∀ i < p.cells, ∀ g < p.groups, f i g = phi i g) :
    ∃ psi, SolvesMultigroup p xsTotal xs external boundary phi psi := by
  obtain ⟨f, hf, hfe⟩ := hfix
  -- columns of `f` below `k` agree with `phi`
  have hcols : ∀ k ≤ p.groups, ∃ v, loopE k (groupStepIso p xsTotal xs external boundary phi)
      (fun _ _ => 0) = .ok v ∧ ∀ i g, g < k → v i g = f i g := by
    have hmono : ∀ n, ∀ w, loopE n (groupStepIso p xsTotal xs external boundary phi) (fun _ _ => 0)
        = .ok w → ∀ k ≤ n, n ≤ p.groups → ∃ v, loopE k (groupStepIso p xsTotal xs external boundary phi)
          (fun _ _ => 0) = .ok v ∧ ∀ i g, g < k → v i g = w i g := by
      intro n
      induction n with
      | zero =>
        intro w hw k hk _
        have : k = 0 := by omega
        subst this; exact ⟨w, hw, fun _ _ _ => rfl⟩
      | succ n ih =>
        intro w hw k hk hn
        rcases Nat.lt_or_ge k (n + 1) with hlt | hge
        · rw [loopE_succ] at hw
          cases hv : loopE n (groupStepIso p xsTotal xs external boundary phi) (fun _ _ => 0) with
          | error e => rw [hv] at hw; exact absurd hw (by simp)
          | ok v =>
            rw [hv] at hw
            simp only at hw
            obtain ⟨new, h1, h2, _⟩ := groupStepIso_spec p xsTotal xs external boundary phi v n (by omega)
              (hcon.ok n (by omega))
            rw [h1] at hw
            have hw : new = w := Except.ok.inj hw
            subst hw
            obtain ⟨u, hu1, hu2⟩ := ih v hv k (by omega) (by omega)
            exact ⟨u, hu1, fun i g hg => by rw [hu2 i g hg, h2 i g (by omega)]⟩
        · have : k = n + 1 := by omega
          subst this; exact ⟨w, hw, fun _ _ _ => rfl⟩
    intro k hk
    exact hmono p.groups f hf k hk (le_refl _)
  refine C22_fixed_point_solves p xsTotal xs external boundary phi hcon.ok fun g hg => ?_
  obtain ⟨v, hv, hve⟩ := hcols g hg.le
  obtain ⟨v', hv', hve'⟩ := hcols (g + 1) hg
  rw [loopE_succ, hv] at hv'
  simp only at hv'
  -- the within-group iteration of group g
  have hoff : ∀ i < p.cells, offScatter p.groups v phi p.mm xs g i
      = offScatter p.groups phi phi p.mm xs g i := by
    intro i hi
    rw [offScatter_eq _ _ _ _ _ hg, offScatter_eq _ _ _ _ _ hg]
    refine sum_congr rfl fun og hog => ?_
    by_cases h : og < g
    · rw [if_pos h, if_pos h, hve i og h, hfe i hi og (by omega)]
    · rw [if_neg h, if_neg h]
  -- sweeps only see the off-scatter in the cells
  have sweep_congr : ∀ a, ∃ b b', isotropicSweep p.cells p.angles (fun m => xsTotal m g)
      (fun m => xs m g g) (offScatter p.groups v phi p.mm xs g)
      (external.group (bidx external.groups g)) (boundary.group (bidx boundary.groups g)) p.mm p.dx
      p.angleX p.angleW p.bcL p.bcR false a = .ok b ∧
      isotropicSweep p.cells p.angles (fun m => xsTotal m g)
      (fun m => xs m g g) (offScatter p.groups phi phi p.mm xs g)
      (external.group (bidx external.groups g)) (boundary.group (bidx boundary.groups g)) p.mm p.dx
      p.angleX p.angleW p.bcL p.bcR false a = .ok b' ∧ ∀ i < p.cells, b i = b' i := by
    intro a
    obtain ⟨b, psi, h1, h2, h3, h4⟩ := isotropicSweep_spec (N := p.cells) (A := p.angles)
      (fun m => xsTotal m g) (fun m => xs m g g) (offScatter p.groups v phi p.mm xs g)
      (external.group (bidx external.groups g)) (boundary.group (bidx boundary.groups g)) p.mm p.dx
      p.angleX p.angleW p.bcL p.bcR false a (hcon.ok g hg).nonzero (hcon.ok g hg).phys
    obtain ⟨b', psi', k1, k2, k3, k4⟩ := isotropicSweep_spec (N := p.cells) (A := p.angles)
      (fun m => xsTotal m g) (fun m => xs m g g) (offScatter p.groups phi phi p.mm xs g)
      (external.group (bidx external.groups g)) (boundary.group (bidx boundary.groups g)) p.mm p.dx
      p.angleX p.angleW p.bcL p.bcR false a (hcon.ok g hg).nonzero (hcon.ok g hg).phys
    refine ⟨b, b', h1, k1, fun i hi => ?_⟩
    have h2' : AllBalanced p.cells p.angles p.angleX p.dx (fun i => xsTotal (p.mm i) g)
        (fun n i => xs (p.mm i) g g * a i
          + (external.group (bidx external.groups g)).val i
            (bidx (external.group (bidx external.groups g)).angles n)
          + offScatter p.groups phi phi p.mm xs g i) psi := by
      intro n hn i hi
      have := h2 n hn i hi
      simp only at this ⊢
      rw [this, hoff i hi]
    have hu := swept_unique (hcon.ok g hg).nonzero (hcon.ok g hg).phys h2' k2 h3 k3
    rw [h4 i, k4 i]
    simp only [Bool.false_eq_true, if_false, if_pos hi]
    exact sum_congr rfl fun n hn => by
      rw [hu n (mem_range.mp hn) i hi.le, hu n (mem_range.mp hn) (i + 1) hi]
  obtain ⟨x, s, hs1, hs2, hx0, hstep, he, _, _⟩ := C18_within_group_stops (N := p.cells)
    (A := p.angles) p.convIn (fun m => xsTotal m g) (fun m => xs m g g)
    (offScatter p.groups v phi p.mm xs g) (external.group (bidx external.groups g))
    (boundary.group (bidx boundary.groups g)) p.mm p.dx p.angleX p.angleW p.bcL p.bcR false
    (fun i => phi i g) (hcon.ok g hg).nonzero (hcon.ok g hg).phys
  have hxs : ∀ i < p.cells, x s i = x 0 i := by
    intro i hi
    have hput : putCol v g (x s) = v' := by
      unfold groupStepIso at hv'
      simp only [(hcon.ok g hg).slab, if_true] at hv'
      rw [he] at hv'
      exact Except.ok.inj hv'
    have h1 : v' i g = x s i := by rw [← hput]; simp [putCol]
    rw [← h1, hve' i g (Nat.lt_succ_self g), hfe i hi g hg, hx0]
  obtain ⟨y, y', hy, hy', hyy⟩ := sweep_congr (x s)
  have hcontr := fun (M : K) (hM : 0 ≤ M) (o o' n n' : ℕ → K) (ho : ∀ i < p.cells, |o i - o' i| ≤ M)
      (h h') => C74_sweep_contracts (N := p.cells) (A := p.angles) (fun m => xsTotal m g)
    (fun m => xs m g g) (offScatter p.groups v phi p.mm xs g)
    (external.group (bidx external.groups g)) (boundary.group (bidx boundary.groups g)) p.mm p.dx
    p.angleX p.angleW p.bcL p.bcR c M hc hM (hcon.ok g hg).nonzero (hcon.ok g hg).phys
    (hcon.fine g hg) hcon.weights hcon.norm (hcon.self hg) o o' n n' ho h h'
  have hy1 : ∀ i < p.cells, y i = x 1 i := by
    intro i hi
    have := hcontr 0 (le_refl _) (x s) (x 0) y (x 1)
      (fun i hi => by rw [hxs i hi]; simp) hy (hstep 0 (by omega)) i hi
    rw [mul_zero] at this
    exact sub_eq_zero.mp (abs_nonpos_iff.mp this)
  have hfixed := cyclic_fixed (N := p.cells) hc hc1 x s hs1 y (fun j hj M hM hd i hi => by
    by_cases hjs : j + 1 < s
    · rw [if_pos hjs]
      exact hcontr M hM (x j) (x (j + 1)) (x (j + 1)) (x (j + 2)) hd (hstep j hj) (hstep (j + 1) hjs) i hi
    · rw [if_neg hjs]
      have hjs' : j + 1 = s := by omega
      have hd' := hcontr M hM (x j) (x (j + 1)) (x (j + 1)) y hd (hstep j hj) (by rw [hjs']; exact hy) i hi
      exact hd') hxs hy1
  obtain ⟨b, b', hb, hb', hbb⟩ := sweep_congr (x 0)
  have hb1 : b = x 1 := by
    have := hstep 0 (by omega)
    rw [hb] at this; exact Except.ok.inj this
  rw [hx0] at hb'
  refine ⟨b', hb', fun i hi => ?_⟩
  rw [← hbb i hi, hb1, hfixed i hi, hx0]

/-- C22 without assuming any fixed point: the flux *returned* by source iteration is the quadrature sum
of angular fluxes that satisfy the full multigroup equation up to an explicit residual; if the outer
iteration and the last within-group iterations stopped by the code's own criteria, the residual in
every cell and group is at most `cells` times (`tolIn * within-group` + `tolOut * up-scatter`) rates. -/
theorem C22_returned_flux_residual (p : Problem K) (xsTotal : ℕ → ℕ → K) (xs : ℕ → ℕ → ℕ → K)
    (external boundary : Arr3 K) (fluxOld : ℕ → ℕ → K) (tolIn tolOut : K) (hin : 0 ≤ tolIn)
    (hout : 0 ≤ tolOut) (hok : ∀ g < p.groups, SlabOk p xsTotal g)
    (hci : p.convIn = fluxConverged p.cells tolIn)
    (hco : p.convOut = fluxConverged2 p.cells p.groups tolOut) :
    ∃ (x y : ℕ → ℕ → ℕ → K) (outer : ℕ) (inner : ℕ → ℕ) (phi : ℕ → ℕ → K) (psi : ℕ → ℕ → ℕ → K) (res : ℕ → ℕ → K),
      sourceIteration p xsTotal (.iso xs) external boundary fluxOld = .ok phi ∧ phi = x outer ∧
      Run (oneSweepIso p xsTotal xs external boundary) p.convOut 100 fluxOld x outer ∧
      (∀ g < p.groups, Run (Slab.isotropicSweep p.cells p.angles (fun m => xsTotal m g) (fun m => xs m g g)
        (offScatter p.groups phi (x (outer - 1)) p.mm xs g) (external.group (bidx external.groups g))
        (boundary.group (bidx boundary.groups g)) p.mm p.dx p.angleX p.angleW p.bcL p.bcR false) p.convIn 100
        (fun i => x (outer - 1) i g) (y g) (inner g) ∧ y g (inner g) = fun i => phi i g) ∧
      (∀ g < p.groups, ∀ i < p.cells, phi i g = scalarCenter p.angles p.angleW (psi g) i) ∧
      (∀ g < p.groups, AllBalanced p.cells p.angles p.angleX p.dx (fun i => xsTotal (p.mm i) g)
        (fun n i => (∑ og ∈ range p.groups, xs (p.mm i) g og * phi i og)
          + external.val i (bidx external.angles n) (bidx external.groups g) + res i g) (psi g)) ∧
      (∀ g < p.groups, SweptInflow p.cells p.angles p.angleX p.bcL p.bcR
        (fun n => boundary.val 0 (bidx boundary.angles n) (bidx boundary.groups g))
        (fun n => boundary.val 1 (bidx boundary.angles n) (bidx boundary.groups g)) (psi g)) ∧
      (outer < 100 → (∀ g < p.groups, inner g < 100) → ∀ i < p.cells, ∀ g < p.groups,
        |res i g| ≤ (p.cells : K) * (tolIn * (|xs (p.mm i) g g| * |phi i g|)
          + tolOut * ∑ og ∈ Ico (g + 1) p.groups, |xs (p.mm i) g og| * |phi i og|)) := by
  obtain ⟨x, s, hs1, hs2, hx0, hstep, he, hconv, hno⟩ := C21_source_iteration_stops p xsTotal xs external
    boundary fluxOld hok
  obtain ⟨new, y, sw, h1, hrun⟩ := oneSweepIso_runs p xsTotal xs external boundary (x (s - 1)) hok
  have hnew : new = x s := by
    have := hstep (s - 1) (by omega)
    rw [h1, show s - 1 + 1 = s by omega] at this
    exact Except.ok.inj this
  subst hnew
  have hlast : ∀ g, g < p.groups → ∃ psi : ℕ → ℕ → K,
      (∀ i < p.cells, x s i g = scalarCenter p.angles p.angleW psi i) ∧
      AllBalanced p.cells p.angles p.angleX p.dx (fun i => xsTotal (p.mm i) g)
        (fun n i => xs (p.mm i) g g * y g (sw g - 1) i
          + external.val i (bidx external.angles n) (bidx external.groups g)
          + ∑ og ∈ (range p.groups).erase g, xs (p.mm i) g og * (if og < g then x s i og else x (s - 1) i og)) psi ∧
      SweptInflow p.cells p.angles p.angleX p.bcL p.bcR
        (fun n => boundary.val 0 (bidx boundary.angles n) (bidx boundary.groups g))
        (fun n => boundary.val 1 (bidx boundary.angles n) (bidx boundary.groups g)) psi := by
    intro g hg
    obtain ⟨hr, hy⟩ := hrun g hg
    have hp := hr.pos
    obtain ⟨f, psi, a1, a2, a3, a4⟩ := isotropicSweep_spec (N := p.cells) (A := p.angles)
      (fun m => xsTotal m g) (fun m => xs m g g)
      (offScatter p.groups (x s) (x (s - 1)) p.mm xs g) (external.group (bidx external.groups g))
      (boundary.group (bidx boundary.groups g)) p.mm p.dx p.angleX p.angleW p.bcL p.bcR false
      (y g (sw g - 1)) (hok g hg).nonzero (hok g hg).phys
    have hf : f = y g (sw g) := by
      have := hr.steps (sw g - 1) (by omega)
      rw [a1, show sw g - 1 + 1 = sw g by omega] at this
      exact Except.ok.inj this
    refine ⟨psi, fun i hi => ?_, fun n hn i hi => ?_, a3⟩
    · have e : x s i g = f i := by rw [hf, hy]
      rw [e, a4 i]; simp [hi]
    · have := a2 n hn i hi
      simp only [Arr3.group] at this ⊢
      rw [this, offScatter_eq _ _ _ _ _ hg]
  have hcv : ∀ g < p.groups, sw g < 100 → p.convIn (fun i => x s i g) (y g (sw g - 1)) = true := fun g hg h => by
    obtain ⟨hr, hy⟩ := hrun g hg
    rw [← hy]; exact hr.stopped h
  choose psi hsc hbal hinf using hlast
  set phi := x s with hphi
  refine ⟨x, y, s, sw, phi, fun g => if hg : g < p.groups then psi g hg else fun _ _ => 0,
    fun i g => if hg : g < p.groups then xs (p.mm i) g g * (y g (sw g - 1) i - phi i g)
      + ∑ og ∈ Ico (g + 1) p.groups, xs (p.mm i) g og * (x (s - 1) i og - phi i og) else 0,
    he, rfl, ⟨hx0, hs1, hs2, hstep, hconv, hno⟩, hrun, ?_, ?_, ?_, ?_⟩
  · intro g hg; simp only [hg, dif_pos]; exact hsc g hg
  · intro g hg n hn i hi
    have := hbal g hg n hn i hi
    simp only [hg, dif_pos] at this ⊢
    rw [this]
    have hsplit : (range p.groups).erase g = range g ∪ Ico (g + 1) p.groups := by
      ext y
      simp only [mem_erase, mem_range, mem_union, mem_Ico]
      omega
    have hdis : Disjoint (range g) (Ico (g + 1) p.groups) := by
      rw [disjoint_left]
      intro y hy hy'
      have := mem_range.mp hy
      have := mem_Ico.mp hy'
      omega
    rw [← add_sum_erase _ _ (mem_range.mpr hg), hsplit, sum_union hdis, sum_union hdis]
    have e1 : ∑ og ∈ range g, xs (p.mm i) g og * (if og < g then phi i og else x (s - 1) i og)
        = ∑ og ∈ range g, xs (p.mm i) g og * phi i og :=
      sum_congr rfl fun og hog => by rw [if_pos (mem_range.mp hog)]
    have e2 : ∑ og ∈ Ico (g + 1) p.groups,
          xs (p.mm i) g og * (if og < g then phi i og else x (s - 1) i og)
        = ∑ og ∈ Ico (g + 1) p.groups, xs (p.mm i) g og * x (s - 1) i og :=
      sum_congr rfl fun og hog => by
        have := mem_Ico.mp hog
        rw [if_neg (by omega)]
    have e3 : ∑ og ∈ Ico (g + 1) p.groups, xs (p.mm i) g og * (x (s - 1) i og - phi i og)
        = ∑ og ∈ Ico (g + 1) p.groups, xs (p.mm i) g og * x (s - 1) i og
          - ∑ og ∈ Ico (g + 1) p.groups, xs (p.mm i) g og * phi i og := by
      rw [← sum_sub_distrib]
      exact sum_congr rfl fun og _ => by ring
    rw [e1, e2, e3]; ring
  · intro g hg; simp only [hg, dif_pos]; exact hinf g hg
  · intro hlt hinner i hi g hg
    have hN : (0 : K) < p.cells := by exact_mod_cast (by omega : 0 < p.cells)
    have rel : ∀ {tol a b : K}, 0 ≤ tol → a ≠ 0 → ((a - b) / a / (p.cells : K)) ^ 2 ≤ tol ^ 2 →
        |b - a| ≤ (p.cells : K) * (tol * |a|) := by
      intro tol a b ht ha hle
      have habs := abs_le_of_sq_le_sq hle ht
      have e : |b - a| = |(a - b) / a / (p.cells : K)| * ((p.cells : K) * |a|) := by
        rw [abs_div, abs_div, abs_of_pos hN, abs_sub_comm]
        have : |a| ≠ 0 := abs_ne_zero.mpr ha
        field_simp
      rw [e]
      calc |(a - b) / a / (p.cells : K)| * ((p.cells : K) * |a|)
          ≤ tol * ((p.cells : K) * |a|) :=
            mul_le_mul_of_nonneg_right habs (mul_nonneg hN.le (abs_nonneg _))
        _ = (p.cells : K) * (tol * |a|) := by ring
    -- outer
    have hc := hconv hlt
    rw [hco] at hc
    unfold fluxConverged2 at hc
    rw [Bool.and_eq_true, decide_eq_true_eq, decide_eq_true_eq] at hc
    obtain ⟨hz, hsum⟩ := hc
    rw [accum_eq_sum] at hsum
    have hO : ∀ og < p.groups, |x (s - 1) i og - phi i og| ≤ (p.cells : K) * (tolOut * |phi i og|) := by
      intro og hog
      refine rel hout (hz i hi og hog) ?_
      refine le_trans ?_ hsum.le
      refine le_trans ?_ (single_le_sum (f := fun i => accum p.groups fun g =>
        ((x s i g - x (s - 1) i g) / x s i g / (p.cells : K)) ^ 2) (fun j _ => by
          rw [accum_eq_sum]; exact sum_nonneg fun _ _ => sq_nonneg _) (mem_range.mpr hi))
      rw [accum_eq_sum]
      exact single_le_sum (f := fun g => ((x s i g - x (s - 1) i g) / x s i g / (p.cells : K)) ^ 2)
        (fun j _ => sq_nonneg _) (mem_range.mpr hog)
    -- inner
    have hI : |y g (sw g - 1) i - phi i g| ≤ (p.cells : K) * (tolIn * |phi i g|) := by
      have hc := hcv g hg (hinner g hg)
      rw [hci] at hc
      unfold fluxConverged at hc
      rw [Bool.and_eq_true, decide_eq_true_eq, decide_eq_true_eq] at hc
      obtain ⟨hz', hsum'⟩ := hc
      rw [accum_eq_sum] at hsum'
      refine rel hin (hz' i hi) ?_
      refine le_trans ?_ hsum'.le
      exact single_le_sum (f := fun i => ((phi i g - y g (sw g - 1) i) / phi i g / (p.cells : K)) ^ 2)
        (fun j _ => sq_nonneg _) (mem_range.mpr hi)
    simp only [hg, dif_pos]
    refine (abs_add_le _ _).trans ?_
    have b1 : |xs (p.mm i) g g * (y g (sw g - 1) i - phi i g)|
        ≤ (p.cells : K) * (tolIn * (|xs (p.mm i) g g| * |phi i g|)) := by
      rw [abs_mul]
      calc |xs (p.mm i) g g| * |y g (sw g - 1) i - phi i g|
          ≤ |xs (p.mm i) g g| * ((p.cells : K) * (tolIn * |phi i g|)) :=
            mul_le_mul_of_nonneg_left hI (abs_nonneg _)
        _ = _ := by ring
    have b2 : |∑ og ∈ Ico (g + 1) p.groups, xs (p.mm i) g og * (x (s - 1) i og - phi i og)|
        ≤ (p.cells : K) * (tolOut * ∑ og ∈ Ico (g + 1) p.groups, |xs (p.mm i) g og| * |phi i og|) := by
      refine (abs_sum_le_sum_abs _ _).trans ?_
      rw [mul_sum, mul_sum]
      refine sum_le_sum fun og hog => ?_
      rw [abs_mul]
      have := (mem_Ico.mp hog).2
      calc |xs (p.mm i) g og| * |x (s - 1) i og - phi i og|
          ≤ |xs (p.mm i) g og| * ((p.cells : K) * (tolOut * |phi i og|)) :=
            mul_le_mul_of_nonneg_left (hO og this) (abs_nonneg _)
        _ = _ := by ring
    calc _ ≤ _ := add_le_add b1 b2
      _ = _ := by ring

/-! ## C74 multigroup -/

/-- C74: one outer sweep, with any number of within-group sweeps in each group, contracts the error
against a solution of the multigroup equations by the factor `c`. -/
theorem C74_outer_sweep_contracts (p : Problem K) (xsTotal : ℕ → ℕ → K) (xs : ℕ → ℕ → ℕ → K)
    (external boundary : Arr3 K) (c M : K) (hc : 0 ≤ c) (hc1 : c ≤ 1) (hM : 0 ≤ M)
    (hcon : Contractive p xsTotal xs c) (phi : ℕ → ℕ → K) (psi : ℕ → ℕ → ℕ → K)
    (hsol : SolvesMultigroup p xsTotal xs external boundary phi psi) (old : ℕ → ℕ → K)
    (hold : ∀ i < p.cells, ∀ g < p.groups, |old i g - phi i g| ≤ M) :
    ∃ new, oneSweepIso p xsTotal xs external boundary old = .ok new ∧
      ∀ i < p.cells, ∀ g < p.groups, |new i g - phi i g| ≤ c * M := by
  have hcM : c * M ≤ M := by
    calc c * M ≤ 1 * M := mul_le_mul_of_nonneg_right hc1 hM
      _ = M := one_mul M
  obtain ⟨new, h1, h2⟩ := loopE_inv (fun k (f : ℕ → ℕ → K) =>
      ∀ i < p.cells, ∀ g < k, |f i g - phi i g| ≤ c * M)
    p.groups (groupStepIso p xsTotal xs external boundary old) (fun _ _ => 0)
    (fun i _ g hg => absurd hg (Nat.not_lt_zero _)) (fun k hk f hf => by
      have sweepBound : ∀ a : ℕ → K, (∀ i < p.cells, |a i - phi i k| ≤ M) →
          ∃ b, isotropicSweep p.cells p.angles (fun m => xsTotal m k) (fun m => xs m k k)
            (offScatter p.groups f old p.mm xs k) (external.group (bidx external.groups k))
            (boundary.group (bidx boundary.groups k)) p.mm p.dx p.angleX p.angleW p.bcL p.bcR false a
            = .ok b ∧ ∀ i < p.cells, |b i - phi i k| ≤ c * M := by
        intro a ha
        obtain ⟨b, psi', k1, k2, k3, k4⟩ := isotropicSweep_spec (N := p.cells) (A := p.angles)
          (fun m => xsTotal m k) (fun m => xs m k k) (offScatter p.groups f old p.mm xs k)
          (external.group (bidx external.groups k)) (boundary.group (bidx boundary.groups k)) p.mm p.dx
          p.angleX p.angleW p.bcL p.bcR false a (hcon.ok k hk).nonzero (hcon.ok k hk).phys
        refine ⟨b, k1, ?_⟩
        have hd := swept_abs_diff_le (hcon.ok k hk).nonzero (hcon.ok k hk).phys (hcon.fine k hk)
          (mul_nonneg hc hM) k2 (hsol.balance k hk) k3 (hsol.inflow k hk) (fun n hn i hi => by
            simp only [Arr3.group]
            rw [offScatter_eq _ _ _ _ _ hk, ← add_sum_erase (range p.groups) _ (mem_range.mpr hk)]
            have e : xs (p.mm i) k k * a i + external.val i (bidx external.angles n)
                  (bidx external.groups k)
                + ∑ og ∈ (range p.groups).erase k, xs (p.mm i) k og * (if og < k then f i og else old i og)
                - (xs (p.mm i) k k * phi i k + ∑ og ∈ (range p.groups).erase k,
                    xs (p.mm i) k og * phi i og
                  + external.val i (bidx external.angles n) (bidx external.groups k))
                = ∑ og ∈ range p.groups, xs (p.mm i) k og *
                    ((if og = k then a i else if og < k then f i og else old i og) - phi i og) := by
              rw [← add_sum_erase (range p.groups) _ (mem_range.mpr hk)]
              simp only [if_true]
              have e2 : ∑ og ∈ (range p.groups).erase k, xs (p.mm i) k og *
                  ((if og = k then a i else if og < k then f i og else old i og) - phi i og)
                  = ∑ og ∈ (range p.groups).erase k,
                      xs (p.mm i) k og * (if og < k then f i og else old i og)
                    - ∑ og ∈ (range p.groups).erase k, xs (p.mm i) k og * phi i og := by
                rw [← sum_sub_distrib]
                refine sum_congr rfl fun og hog => ?_
                rw [if_neg (mem_erase.mp hog).1]; ring
              rw [e2]; ring
            rw [e]
            refine (abs_sum_le_sum_abs _ _).trans ?_
            calc ∑ og ∈ range p.groups, |xs (p.mm i) k og *
                    ((if og = k then a i else if og < k then f i og else old i og) - phi i og)|
                ≤ ∑ og ∈ range p.groups, xs (p.mm i) k og * M := by
                  refine sum_le_sum fun og hog => ?_
                  have hog := mem_range.mp hog
                  rw [abs_mul, abs_of_nonneg (hcon.nonneg i hi k hk og hog)]
                  refine mul_le_mul_of_nonneg_left ?_ (hcon.nonneg i hi k hk og hog)
                  by_cases h1 : og = k
                  · subst h1; simp only [if_true]; exact ha i hi
                  · rw [if_neg h1]
                    by_cases h2 : og < k
                    · rw [if_pos h2]; exact (hf i hi og h2).trans hcM
                    · rw [if_neg h2]; exact hold i hi og hog
              _ = (∑ og ∈ range p.groups, xs (p.mm i) k og) * M := by rw [sum_mul]
              _ ≤ (c * xsTotal (p.mm i) k) * M := mul_le_mul_of_nonneg_right (hcon.rows i hi k hk) hM
              _ = xsTotal (p.mm i) k * (c * M) := by ring)
        intro i hi
        rw [k4 i, hsol.scalar k hk i hi]
        simp only [Bool.false_eq_true, if_false, if_pos hi]
        exact scalarCenter_abs_diff_le hcon.weights hcon.norm (fun n hn => hd n hn i hi.le)
          (fun n hn => hd n hn (i + 1) hi)
      obtain ⟨x, j, _, _, hstep, hP, he, _⟩ := iterateE_spec (isotropicSweep p.cells p.angles
        (fun m => xsTotal m k) (fun m => xs m k k)
        (offScatter p.groups f old p.mm xs k) (external.group (bidx external.groups k))
        (boundary.group (bidx boundary.groups k)) p.mm p.dx p.angleX p.angleW p.bcL p.bcR false) p.convIn
        (fun a => ∀ i < p.cells, |a i - phi i k| ≤ M) (fun a ha => by
          obtain ⟨b, hb1, hb2⟩ := sweepBound a ha
          exact ⟨b, hb1, fun i hi => (hb2 i hi).trans hcM⟩) 99 (fun i => old i k)
        (fun i hi => hold i hi k hk)
      obtain ⟨b, hb1, hb2⟩ := sweepBound (x j) (hP j (by omega))
      have hbx : b = x (j + 1) := by
        have := hstep j (le_refl _)
        rw [hb1] at this; exact Except.ok.inj this
      refine ⟨putCol f k (x (j + 1)), ?_, fun i hi g hg => ?_⟩
      · unfold groupStepIso
        simp only [(hcon.ok k hk).slab, if_true]
        unfold isotropicSn
        rw [he]; rfl
      · unfold putCol
        by_cases hgk : g = k
        · subst hgk; rw [if_pos rfl, ← hbx]; exact hb2 i hi
        · rw [if_neg hgk]; exact hf i hi g (by omega))
  exact ⟨new, h1, fun i hi g hg => h2 i hi g hg⟩

/-- C74: the flux returned by source iteration after `s` outer sweeps is within `c^s M` of the solution
of the multigroup equations, for every cell and group. -/
theorem C74_source_iteration_converges (p : Problem K) (xsTotal : ℕ → ℕ → K) (xs : ℕ → ℕ → ℕ → K)
    (external boundary : Arr3 K) (c M : K) (hc : 0 ≤ c) (hc1 : c ≤ 1) (hM : 0 ≤ M)
    (hcon : Contractive p xsTotal xs c) (phi : ℕ → ℕ → K) (psi : ℕ → ℕ → ℕ → K)
    (hsol : SolvesMultigroup p xsTotal xs external boundary phi psi) (fluxOld : ℕ → ℕ → K)
    (hold : ∀ i < p.cells, ∀ g < p.groups, |fluxOld i g - phi i g| ≤ M) :
    ∃ flux sweeps, 1 ≤ sweeps ∧ sweeps ≤ 100 ∧
      sourceIteration p xsTotal (.iso xs) external boundary fluxOld = .ok flux ∧
      (∀ i < p.cells, ∀ g < p.groups, |flux i g - phi i g| ≤ c ^ sweeps * M) ∧
      (sweeps < 100 → ∃ prev, p.convOut flux prev = true) := by
  obtain ⟨x, s, hs1, hs2, hx0, hstep, he, hconv, _⟩ := C21_source_iteration_stops p xsTotal xs external
    boundary fluxOld hcon.ok
  have key : ∀ j ≤ s, ∀ i < p.cells, ∀ g < p.groups, |x j i g - phi i g| ≤ c ^ j * M := by
    intro j
    induction j with
    | zero => intro _ i hi g hg; rw [hx0, pow_zero, one_mul]; exact hold i hi g hg
    | succ j ih =>
      intro hj i hi g hg
      obtain ⟨new, h1, h2⟩ := C74_outer_sweep_contracts p xsTotal xs external boundary c (c ^ j * M) hc
        hc1 (mul_nonneg (pow_nonneg hc j) hM) hcon phi psi hsol (x j) (ih (by omega))
      have : new = x (j + 1) := by
        have := hstep j (by omega)
        rw [h1] at this; exact Except.ok.inj this
      subst this
      rw [pow_succ, mul_comm (c ^ j) c, mul_assoc]
      exact h2 i hi g hg
  exact ⟨x s, s, hs1, hs2, he, key s (le_refl _), fun h => ⟨_, hconv h⟩⟩

-- the fine example with half of each total cross section spread over the two groups is contractive
example : Contractive exFine exTotal (fun m g _ => exTotal m g / 4) (1 / 2) where
  ok := fun g _ => exFineOk g
  fine := fun g hg n hn => exFineFor g hg n hn
  weights := fun n _ => by show (0 : ℚ) ≤ 1 / 4; norm_num
  norm := by show ∑ n ∈ range 4, (1 / 4 : ℚ) = 1; norm_num
  nonneg := fun i _ g _ g' _ => by
    have := ((exFineOk g).phys i (by assumption)).2
    positivity
  rows := fun i _ g _ => by
    show ∑ g' ∈ range 2, _ ≤ _
    rw [sum_range_succ, sum_range_one]
    linarith

end Discrete1.Props
