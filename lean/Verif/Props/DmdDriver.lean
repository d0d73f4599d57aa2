import Verif.Model.DmdDriver
import Verif.Props.Collect
import Verif.Props.HybridTime

/-! # C121-C123: `fixed1d.dynamic_mode_decomp` as a solver -/

set_option linter.unusedSectionVars false
set_option linter.unusedSimpArgs false

namespace Discrete1.Props

open Finset Discrete1.Tools Discrete1.Spec Discrete1.Slab Discrete1.MultiGroup Discrete1.Drivers

variable {K : Type} [Field K] [LinearOrder K] [IsStrictOrderedRing K]

/-- One sweep over all groups, as source iteration performs it. -/
def sweepOnce (p : Problem K) (xsTotal : ℕ → ℕ → K) (xs : Scatter K) (external boundary : Arr3 K) :
    (ℕ → ℕ → K) → Except PyErr (ℕ → ℕ → K) :=
  match xs with
  | .iso xs => oneSweepIso p xsTotal xs external boundary
  | .aniso L xs => oneSweepAniso p L xsTotal xs external boundary
      (fun l nn => legendre (p.angleX nn) l) (fun l nn => p.angleW nn * legendre (p.angleX nn) l)

theorem sweepOnce_eq (p : Problem K) (xsTotal : ℕ → ℕ → K) (xs : Scatter K) (external boundary : Arr3 K) :
    (fun o => loopE p.groups (dmdStep p xsTotal xs external boundary o) fun _ _ => 0)
      = sweepOnce p xsTotal xs external boundary := by
  cases xs <;> rfl

theorem sourceIteration_eq (p : Problem K) (xsTotal : ℕ → ℕ → K) (xs : Scatter K)
    (external boundary : Arr3 K) (old : ℕ → ℕ → K) :
    sourceIteration p xsTotal xs external boundary old
      = iterateE (sweepOnce p xsTotal xs external boundary) p.convOut 99 old := by
  cases xs <;> rfl

/-- `iterateE` along a known sequence of iterates. -/
theorem iterateE_first {α ε : Type} (sweep : α → Except ε α) (conv : α → α → Bool) (x : ℕ → α) :
    ∀ (k left s : ℕ), k ≤ left → (∀ j ≤ k, sweep (x (s + j)) = .ok (x (s + j + 1))) →
      (∀ j < k, conv (x (s + j + 1)) (x (s + j)) = false) → conv (x (s + k + 1)) (x (s + k)) = true →
      iterateE sweep conv left (x s) = .ok (x (s + k + 1)) := by
  intro k
  induction k with
  | zero =>
    intro left s _ h1 _ h3
    have h1 := h1 0 (le_refl _)
    rw [add_zero] at h1 h3 ⊢
    cases left with
    | zero => exact h1
    | succ left => unfold iterateE; rw [h1]; simp [h3]
  | succ k ih =>
    intro left s hk h1 h2 h3
    obtain ⟨left, rfl⟩ : ∃ l, left = l + 1 := ⟨left - 1, by omega⟩
    have h4 := h1 0 (by omega)
    have h5 := h2 0 (by omega)
    rw [add_zero] at h4 h5
    unfold iterateE
    rw [h4]
    simp only [h5, Bool.false_eq_true, if_false]
    rw [show s + (k + 1) + 1 = s + 1 + k + 1 by omega]
    refine ih left (s + 1) (by omega) (fun j hj => ?_) (fun j hj => ?_) ?_
    · have := h1 (j + 1) (by omega)
      rwa [show s + (j + 1) = s + 1 + j by omega] at this
    · have := h2 (j + 1) (by omega)
      rwa [show s + (j + 1) = s + 1 + j by omega] at this
    · rwa [show s + (k + 1) = s + 1 + k by omega] at h3

/-! ## C121 -/

/-- C121: let `x 0 = 0, x 1, ...` be the iterates of the sweep.  If sweep `k + 1` is the first one that meets
the tolerance and it is among the first `R + K` and the first 100 sweeps, then
`fixed1d.dynamic_mode_decomp` returns what `fixed1d.source_iteration` returns, for every output option,
every geometry and every SVD routine (scattering isotropic or anisotropic). -/
theorem C121_early_convergence (svdEmpty : Option PyErr)
    (svd : ∀ n m : ℕ, Matrix (Fin n) (Fin (m + 1)) K → Svd K n m) (residual : K) (p : Problem K)
    (xsTotal : ℕ → ℕ → K) (scatter : Scatter K) (fission : Fission K) (external boundary : Arr3 K)
    (angular edges : Bool) (R snap k : ℕ) (x : ℕ → ℕ → ℕ → K) (hx : x 0 = fun _ _ => 0)
    (hit : ∀ j < R + snap, sweepOnce p xsTotal (transferMatrix scatter fission) external boundary (x j)
      = .ok (x (j + 1)))
    (hk : k < R + snap) (hk' : k < 100) (hn : ∀ j < k, p.convOut (x (j + 1)) (x j) = false)
    (hc : p.convOut (x (k + 1)) (x k) = true) :
    fixedDynamicModeDecomp svdEmpty svd residual p xsTotal scatter fission external boundary angular edges
        R snap
      = fixedSourceIteration p xsTotal scatter fission external boundary angular edges := by
  have h1 : sourceIteration p xsTotal (transferMatrix scatter fission) external boundary (fun _ _ => 0)
      = .ok (x (k + 1)) := by
    rw [sourceIteration_eq, ← hx]
    have := iterateE_first (sweepOnce p xsTotal (transferMatrix scatter fission) external boundary) p.convOut
      x k 99 0 (by omega) (fun j hj => by rw [zero_add]; exact hit j (by omega))
      (fun j hj => by rw [zero_add]; exact hn j hj) (by rw [zero_add]; exact hc)
    rwa [zero_add] at this
  obtain ⟨h', f, d1, d2, _⟩ := C30_early_convergence p.groups
    (dmdStep p xsTotal (transferMatrix scatter fission) external boundary) p.convOut R snap
    (fun _ => fun _ _ => 0) x hx (by rw [sweepOnce_eq]; exact hit) k hk hn hc
  unfold fixedDynamicModeDecomp fixedSourceIteration dynamicModeDecomp
  simp only
  rw [d1, h1]
  simp only [d2]

theorem sweepOnce_ok (p : Problem K) (xsTotal : ℕ → ℕ → K) (xs : Scatter K) (external boundary : Arr3 K)
    (hok : ∀ g < p.groups, SlabOk p xsTotal g) (old : ℕ → ℕ → K) :
    ∃ new, sweepOnce p xsTotal xs external boundary old = .ok new := by
  cases xs with
  | iso xs =>
    obtain ⟨f, h, _⟩ := oneSweepIso_spec p xsTotal xs external boundary old hok
    exact ⟨f, h⟩
  | aniso L xs =>
    obtain ⟨x, s, h1, _, h3, h4, _⟩ := C21_source_iteration_stops_aniso p L xsTotal xs external boundary old hok
    have := h4 0 (by omega)
    rw [h3] at this
    exact ⟨_, this⟩

theorem iterates_exist {α ε : Type} (sweep : α → Except ε α) (hok : ∀ a, ∃ b, sweep a = .ok b) (a : α) :
    ∃ x : ℕ → α, x 0 = a ∧ ∀ j, sweep (x j) = .ok (x (j + 1)) := by
  choose f hf using hok
  exact ⟨fun k => f^[k] a, rfl, fun j => by
    show sweep (f^[j] a) = .ok (f^[j + 1] a)
    rw [hf, Function.iterate_succ_apply']⟩

/-- C121 on slabs: the iterates exist, and whenever source iteration stops because of its tolerance
(sweep `k + 1 ≤ 99`, or the 100th) within `R + K` sweeps, both solvers return the same. -/
theorem C121_slab (svdEmpty : Option PyErr)
    (svd : ∀ n m : ℕ, Matrix (Fin n) (Fin (m + 1)) K → Svd K n m) (residual : K) (p : Problem K)
    (xsTotal : ℕ → ℕ → K) (scatter : Scatter K) (fission : Fission K) (external boundary : Arr3 K)
    (hok : ∀ g < p.groups, SlabOk p xsTotal g) :
    ∃ x : ℕ → ℕ → ℕ → K, x 0 = (fun _ _ => 0) ∧
      (∀ j, sweepOnce p xsTotal (transferMatrix scatter fission) external boundary (x j) = .ok (x (j + 1))) ∧
      ∀ (angular edges : Bool) (R snap k : ℕ), k < R + snap → k < 100 →
        (∀ j < k, p.convOut (x (j + 1)) (x j) = false) → p.convOut (x (k + 1)) (x k) = true →
        fixedDynamicModeDecomp svdEmpty svd residual p xsTotal scatter fission external boundary angular
            edges R snap
          = fixedSourceIteration p xsTotal scatter fission external boundary angular edges := by
  obtain ⟨x, h0, hx⟩ := iterates_exist (sweepOnce p xsTotal (transferMatrix scatter fission) external boundary)
    (sweepOnce_ok p xsTotal _ external boundary hok) (fun _ _ => 0)
  exact ⟨x, h0, hx, fun angular edges R snap k h1 h2 h3 h4 => C121_early_convergence svdEmpty svd residual p
    xsTotal scatter fission external boundary angular edges R snap k x h0 (fun j _ => hx j) h1 h2 h3 h4⟩

/-! ## C122 -/

/-- C122 (violation): with fewer than two snapshots `fixed1d.dynamic_mode_decomp` raises, unless one of the
`R + K` sweeps happens to meet the tolerance. -/
theorem C122_violation_few_snapshots (svdEmpty : Option PyErr)
    (svd : ∀ n m : ℕ, Matrix (Fin n) (Fin (m + 1)) K → Svd K n m) (residual : K) (p : Problem K)
    (xsTotal : ℕ → ℕ → K) (scatter : Scatter K) (fission : Fission K) (external boundary : Arr3 K)
    (angular edges : Bool) (R snap : ℕ) (hsnap : snap < 2) (x : ℕ → ℕ → ℕ → K) (hx : x 0 = fun _ _ => 0)
    (hit : ∀ j < R + snap, sweepOnce p xsTotal (transferMatrix scatter fission) external boundary (x j)
      = .ok (x (j + 1)))
    (hn : ∀ j < R + snap, p.convOut (x (j + 1)) (x j) = false) :
    ∃ e, fixedDynamicModeDecomp svdEmpty svd residual p xsTotal scatter fission external boundary angular
      edges R snap = .error e := by
  obtain ⟨h', f, y, d1, _⟩ := C30_snapshots p.groups
    (dmdStep p xsTotal (transferMatrix scatter fission) external boundary) p.convOut R snap
    (fun _ => fun _ _ => 0) x hx (by rw [sweepOnce_eq]; exact hit) hn
  unfold fixedDynamicModeDecomp dynamicModeDecomp
  simp only
  rw [d1]
  simp only
  obtain rfl | rfl : snap = 0 ∨ snap = 1 := by omega
  · exact ⟨_, rfl⟩
  · exact ⟨_, rfl⟩

/-- C122 (violation): with the convergence test of the code, one snapshot and no warm-up sweep always raise:
the first sweep starts from zero, so its relative change is one everywhere. -/
theorem C122_violation_one_snapshot (svdEmpty : Option PyErr)
    (svd : ∀ n m : ℕ, Matrix (Fin n) (Fin (m + 1)) K → Svd K n m) (residual tol : K) (p : Problem K)
    (xsTotal : ℕ → ℕ → K) (scatter : Scatter K) (fission : Fission K) (external boundary : Arr3 K)
    (angular edges : Bool) (hok : ∀ g < p.groups, SlabOk p xsTotal g)
    (hconv : p.convOut = fluxConverged2 p.cells p.groups tol) (hcells : 0 < p.cells)
    (htol : tol ^ 2 * p.cells ≤ p.groups) :
    ∃ e, fixedDynamicModeDecomp svdEmpty svd residual p xsTotal scatter fission external boundary angular
      edges 0 1 = .error e := by
  obtain ⟨x, h0, hx⟩ := iterates_exist (sweepOnce p xsTotal (transferMatrix scatter fission) external boundary)
    (sweepOnce_ok p xsTotal _ external boundary hok) (fun _ _ => 0)
  refine C122_violation_few_snapshots svdEmpty svd residual p xsTotal scatter fission external boundary angular
    edges 0 1 (by omega) x h0 (fun j _ => hx j) fun j hj => ?_
  obtain rfl : j = 0 := by omega
  rw [hconv, h0]
  unfold fluxConverged2
  by_cases hz : ∀ i < p.cells, ∀ g < p.groups, x (0 + 1) i g ≠ 0
  · have hN : (0 : K) < p.cells := by exact_mod_cast hcells
    have : accum p.cells (fun i => accum p.groups fun g =>
        ((x (0 + 1) i g - 0) / x (0 + 1) i g / (p.cells : K)) ^ 2) = (p.groups : K) / (p.cells : K) := by
      rw [accum_eq_sum]
      rw [sum_congr rfl fun i hi => by
        rw [accum_eq_sum, sum_congr rfl fun g hg => by
          rw [sub_zero, div_self (hz i (mem_range.mp hi) g (mem_range.mp hg))]]]
      simp only [sum_const, card_range, nsmul_eq_mul]
      field_simp
    rw [this]
    have h : ¬ ((p.groups : K) / (p.cells : K)) < tol ^ 2 := by
      rw [not_lt, le_div_iff₀ hN]; exact htol
    simp [h]
  · simp [hz]

/-! ## C123 -/

/-- One sweep of a down-scatter problem solves it, whatever the starting flux. -/
theorem downscatter_sweep (p : Problem K) (xsTotal : ℕ → ℕ → K) (xs : ℕ → ℕ → ℕ → K)
    (external boundary : Arr3 K) (hok : ∀ g < p.groups, SlabOk p xsTotal g)
    (hdown : ∀ m g g', g ≤ g' → xs m g g' = 0) {old new : ℕ → ℕ → K}
    (h : oneSweepIso p xsTotal xs external boundary old = .ok new) :
    ∃ psi, SolvesMultigroup p xsTotal xs external boundary new psi := by
  obtain ⟨new', h1, h2, _⟩ := oneSweepIso_spec p xsTotal xs external boundary old hok
  rw [h] at h1
  obtain rfl := Except.ok.inj h1
  choose! prev psi s h2 using h2
  refine ⟨psi, fun g hg => (h2 g hg).2.2.1, fun g hg n hn i hi => ?_, fun g hg => (h2 g hg).2.2.2.2.1⟩
  rw [(h2 g hg).2.2.2.1 n hn i hi]
  simp only
  rw [hdown _ g g le_rfl, ← add_sum_erase _ _ (mem_range.mpr hg), hdown _ g g le_rfl, zero_mul, zero_mul,
    zero_add, zero_add, add_comm]
  congr 1
  refine sum_congr rfl fun og _ => ?_
  by_cases hlt : og < g
  · rw [if_pos hlt]
  · rw [hdown _ g og (by omega), zero_mul, zero_mul]

/-- Down-scatter problems have at most one solution (no restriction on sizes or signs). -/
theorem downscatter_unique (p : Problem K) (xsTotal : ℕ → ℕ → K) (xs : ℕ → ℕ → ℕ → K)
    (external boundary : Arr3 K) (hok : ∀ g < p.groups, SlabOk p xsTotal g)
    (hdown : ∀ m g g', g ≤ g' → xs m g g' = 0) {phi phi' : ℕ → ℕ → K} {psi psi' : ℕ → ℕ → ℕ → K}
    (h : SolvesMultigroup p xsTotal xs external boundary phi psi)
    (h' : SolvesMultigroup p xsTotal xs external boundary phi' psi') :
    ∀ g < p.groups, ∀ i < p.cells, phi i g = phi' i g := by
  intro g
  induction g using Nat.strong_induction_on with
  | _ g ih =>
    intro hg i hi
    have hq : ∀ i < p.cells, (∑ g' ∈ range p.groups, xs (p.mm i) g g' * phi i g')
        = ∑ g' ∈ range p.groups, xs (p.mm i) g g' * phi' i g' := by
      intro i hi
      refine sum_congr rfl fun g' hg' => ?_
      by_cases hlt : g' < g
      · rw [ih g' hlt (mem_range.mp hg') i hi]
      · rw [hdown _ g g' (by omega), zero_mul, zero_mul]
    have hb := h.balance g hg
    have hb' := h'.balance g hg
    have hbb : AllBalanced p.cells p.angles p.angleX p.dx (fun i => xsTotal (p.mm i) g)
        (fun n i => ∑ og ∈ range p.groups, xs (p.mm i) g og * phi i og
          + external.val i (bidx external.angles n) (bidx external.groups g)) (psi' g) :=
      fun n hn i hi => by
        refine (hb' n hn i hi).trans ?_
        simp only
        rw [← hq i hi]
    have := swept_unique (hok g hg).nonzero (hok g hg).phys hb hbb (h.inflow g hg) (h'.inflow g hg)
    rw [h.scalar g hg i hi, h'.scalar g hg i hi]
    unfold scalarCenter
    refine sum_congr rfl fun n hn => ?_
    rw [this n (mem_range.mp hn) i (by omega), this n (mem_range.mp hn) (i + 1) (by omega)]

theorem reshape_flatten (cells groups : ℕ) (f : ℕ → ℕ → K) (i g : ℕ) (hi : i < cells) (hg : g < groups) :
    reshape cells groups (flatten cells groups f) i g = f i g := by
  unfold reshape flatten
  rw [dif_pos ⟨hi, hg⟩]
  simp only
  rw [show i * groups + g = g + groups * i by ring, Nat.add_mul_div_left _ _ (by omega),
    Nat.div_eq_of_lt hg, zero_add, Nat.add_mul_mod_self_left, Nat.mod_eq_of_lt hg]

open Matrix in
/-- If the last differences vanish, `tools.dmd` returns its last iterate. -/
theorem toolsDmd_stationary (svdEmpty : Option PyErr)
    (svd : ∀ n m : ℕ, Matrix (Fin n) (Fin (m + 1)) K → Svd K n m) (residual : K) (cells groups snap : ℕ)
    (hsnap : 2 ≤ snap) (fluxOld : ℕ → ℕ → K) (y : Buffers.Snapshots K)
    (hy : ∀ k < snap - 1, ∀ i < cells, ∀ g < groups, y.plus k i g = 0) :
    ∃ out, toolsDmd svdEmpty svd residual cells groups fluxOld y snap = .ok out ∧
      ∀ i < cells, ∀ g < groups, out i g = fluxOld i g := by
  obtain ⟨m, rfl⟩ : ∃ m, snap = m + 2 := ⟨snap - 2, by omega⟩
  have hp : (Matrix.of fun i (k : Fin (m + 1)) => flatten cells groups (y.plus k) i) = 0 := by
    ext i k
    rw [of_apply, Matrix.zero_apply]
    unfold flatten
    have hi := i.isLt
    have hg : 0 < groups := by
      rcases Nat.eq_zero_or_pos groups with h | h
      · subst h; simp at hi
      · exact h
    exact hy k (by have := k.isLt; omega) _ (by rw [Nat.div_lt_iff_lt_mul hg]; exact hi) _ (Nat.mod_lt _ hg)
  unfold toolsDmd
  simp only
  rw [hp]
  have hA : ∀ (r : ℕ) (U : Matrix (Fin (cells * groups)) (Fin r) K) (s : Fin r → K)
      (V : Matrix (Fin r) (Fin (m + 1)) K), Dmd.aTilde r U s V 0 = 0 := by
    intro r U s V
    unfold Dmd.aTilde
    simp
  rw [hA, sub_zero, det_one, if_neg one_ne_zero]
  refine ⟨_, rfl, fun i hi g hg => ?_⟩
  have : ∀ (q : ℕ) (U : Fin (cells * groups) → ℕ → K) (S : ℕ → K) (Vt : ℕ → Fin (m + 1) → K)
      (f : Fin (cells * groups) → K), Dmd.dmd residual q U S Vt 0 f = f := by
    intro q U S Vt f
    unfold Dmd.dmd Dmd.dmdCore
    funext i
    have hz : ∀ M : Matrix (Fin (Dmd.matSize residual (m + 2) q S)) (Fin (cells * groups)) K,
        M *ᵥ (fun _ => 0) = 0 := fun M => mulVec_zero M
    simp only [hz, mulVec_zero, Pi.zero_apply, add_zero, Matrix.zero_apply, sub_zero]
  rw [this, reshape_flatten _ _ _ _ _ hi hg]

/-- C123: if no group scatters into itself or into a lower-numbered group (fission included),
`fixed1d.dynamic_mode_decomp` returns the exact solution of the multigroup equations for every number of
warm-up sweeps, every number of snapshots from two on, every tolerance and every SVD routine. -/
theorem C123_downscatter_exact (svdEmpty : Option PyErr)
    (svd : ∀ n m : ℕ, Matrix (Fin n) (Fin (m + 1)) K → Svd K n m) (residual : K) (p : Problem K)
    (xsTotal : ℕ → ℕ → K) (scatter : ℕ → ℕ → ℕ → K) (fission : Fission K) (external boundary : Arr3 K)
    (R snap : ℕ) (hsnap : 2 ≤ snap) (hok : ∀ g < p.groups, SlabOk p xsTotal g)
    (hdown : ∀ m g g', g ≤ g' → scatter m g g' + fissionMatrix fission m g g' = 0) :
    ∃ (phi : ℕ → ℕ → K) (psi : ℕ → ℕ → ℕ → K),
      fixedDynamicModeDecomp svdEmpty svd residual p xsTotal (.iso scatter) fission external boundary false
        false R snap = .ok (.scalar phi) ∧
      SolvesMultigroup p xsTotal (fun m g g' => scatter m g g' + fissionMatrix fission m g g') external
        boundary phi psi := by
  set xs : ℕ → ℕ → ℕ → K := fun m g g' => scatter m g g' + fissionMatrix fission m g g' with hxs
  have htr : transferMatrix (.iso scatter) fission = .iso xs := transfer_iso scatter fission
  obtain ⟨x, h0, hx⟩ := iterates_exist (sweepOnce p xsTotal (.iso xs) external boundary)
    (sweepOnce_ok p xsTotal _ external boundary hok) (fun _ _ => 0)
  have hsol : ∀ j, ∃ psi, SolvesMultigroup p xsTotal xs external boundary (x (j + 1)) psi := fun j =>
    downscatter_sweep p xsTotal xs external boundary hok hdown (hx j)
  unfold fixedDynamicModeDecomp dynamicModeDecomp
  simp only
  rw [htr]
  by_cases hall : ∀ j < R + snap, p.convOut (x (j + 1)) (x j) = false
  · obtain ⟨h', f, y, d1, d2, _, d4⟩ := C30_snapshots p.groups
      (dmdStep p xsTotal (.iso xs) external boundary) p.convOut R snap
      (fun _ => fun _ _ => 0) x h0 (by rw [sweepOnce_eq]; exact fun j _ => hx j) hall
    rw [d1]
    obtain ⟨out, e1, e2⟩ := toolsDmd_stationary svdEmpty svd residual p.cells p.groups snap hsnap (h' f) y
      (fun k hk i hi g hg => by
        rw [(d4 k hk).2 i g, sub_eq_zero]
        obtain ⟨psi, s1⟩ := hsol (R + k + 1)
        obtain ⟨psi', s2⟩ := hsol (R + k)
        exact downscatter_unique p xsTotal xs external boundary hok hdown s1 s2 g hg i hi)
    simp only
    rw [e1]
    obtain ⟨psi, s⟩ := hsol (R + snap - 1)
    rw [show R + snap - 1 + 1 = R + snap by omega, ← d2] at s
    refine ⟨out, psi, by simp, fun g hg i hi => by rw [e2 i hi g hg]; exact s.scalar g hg i hi,
      fun g hg n hn i hi => ?_, s.inflow⟩
    rw [s.balance g hg n hn i hi]
    simp only
    congr 1
    exact sum_congr rfl fun g' hg' => by rw [e2 i hi g' (mem_range.mp hg')]
  · push Not at hall
    have hex : ∃ j, j < R + snap ∧ p.convOut (x (j + 1)) (x j) = true := by
      obtain ⟨j, h1, h2⟩ := hall
      exact ⟨j, h1, by simpa using h2⟩
    classical
    obtain ⟨h1, h2⟩ := Nat.find_spec hex
    obtain ⟨h', f, d1, d2, _⟩ := C30_early_convergence p.groups
      (dmdStep p xsTotal (.iso xs) external boundary) p.convOut R snap
      (fun _ => fun _ _ => 0) x h0 (by rw [sweepOnce_eq]; exact fun j _ => hx j) (Nat.find hex) h1
      (fun j hj => by
        have := Nat.find_min hex hj
        simp only [not_and, Bool.not_eq_true] at this
        exact this (by omega)) h2
    rw [d1]
    obtain ⟨psi, s⟩ := hsol (Nat.find hex)
    exact ⟨_, psi, rfl, d2 ▸ s⟩

/-- C121 without hypotheses on iterates: if no group scatters into itself or into a lower-numbered group and
the tolerance accepts two equal fluxes, then with two sweeps or more (`R + K ≥ 2`)
`fixed1d.dynamic_mode_decomp` and `fixed1d.source_iteration` return the same for every output option. -/
theorem C121_downscatter (svdEmpty : Option PyErr)
    (svd : ∀ n m : ℕ, Matrix (Fin n) (Fin (m + 1)) K → Svd K n m) (residual : K) (p : Problem K)
    (xsTotal : ℕ → ℕ → K) (scatter : ℕ → ℕ → ℕ → K) (fission : Fission K) (external boundary : Arr3 K)
    (angular edges : Bool) (R snap : ℕ) (hsnap : 2 ≤ R + snap) (hok : ∀ g < p.groups, SlabOk p xsTotal g)
    (hdown : ∀ m g g', g ≤ g' → scatter m g g' + fissionMatrix fission m g g' = 0)
    (hconv : ∀ f f' : ℕ → ℕ → K, (∀ i < p.cells, ∀ g < p.groups, f i g = f' i g) → p.convOut f f' = true) :
    fixedDynamicModeDecomp svdEmpty svd residual p xsTotal (.iso scatter) fission external boundary angular
        edges R snap
      = fixedSourceIteration p xsTotal (.iso scatter) fission external boundary angular edges := by
  obtain ⟨x, h0, hx, h⟩ := C121_slab svdEmpty svd residual p xsTotal (.iso scatter) fission external boundary hok
  by_cases h1 : p.convOut (x 1) (x 0) = true
  · exact h angular edges R snap 0 (by omega) (by omega) (fun j hj => by omega) h1
  · refine h angular edges R snap 1 (by omega) (by omega) (fun j hj => ?_) ?_
    · obtain rfl : j = 0 := by omega
      simpa using h1
    · have htr : transferMatrix (.iso scatter) fission
        = .iso fun m g g' => scatter m g g' + fissionMatrix fission m g g' := transfer_iso scatter fission
      rw [htr] at hx
      obtain ⟨psi, s1⟩ := downscatter_sweep p xsTotal _ external boundary hok hdown (hx 0)
      obtain ⟨psi', s2⟩ := downscatter_sweep p xsTotal _ external boundary hok hdown (hx 1)
      exact hconv _ _ fun i hi g hg => downscatter_unique p xsTotal _ external boundary hok hdown s2 s1 g hg i hi

/-! Examples -/

/-- Some SVD routine (its factors play no role in the theorems above). -/
def exSvd : ∀ n m : ℕ, Matrix (Fin n) (Fin (m + 1)) ℚ → Svd ℚ n m := fun _ _ A =>
  ⟨1, fun i _ => A i 0, fun _ => 1, fun _ _ => 1⟩

/-- `exFine` with the convergence test of the code. -/
def exDmd : Problem ℚ := { exFine with convOut := fluxConverged2 3 2 (1 / 100000000) }

theorem exDmdOk (g : ℕ) : SlabOk exDmd exTotal g := ⟨rfl, (exFineOk g).nonzero, (exFineOk g).phys⟩

example := C122_violation_one_snapshot none exSvd (1 / 1000000000) (1 / 100000000) exDmd exTotal
  (.iso fun _ g g' => if g' < g then 1 / 4 else 0)
  (.matrix fun _ _ _ => 0) ⟨1, 1, fun _ _ _ => 1⟩ ⟨1, 1, fun _ _ _ => 0⟩ false false
  (fun g _ => exDmdOk g) rfl (by decide) (by
    show ((1 / 100000000 : ℚ)) ^ 2 * ((3 : ℕ) : ℚ) ≤ ((2 : ℕ) : ℚ)
    norm_num)

example := C123_downscatter_exact none exSvd (1 / 1000000000) exDmd exTotal
  (fun _ g g' => if g' < g then 1 / 4 else 0) (.matrix fun _ _ _ => 0) ⟨1, 1, fun _ _ _ => 1⟩ ⟨1, 1, fun _ _ _ => 0⟩ 2 10 (by omega)
  (fun g _ => exDmdOk g) (fun m g g' h => by simp [fissionMatrix, Nat.not_lt.mpr h])

example := C121_downscatter none exSvd (1 / 1000000000)
  { exDmd with convOut := fun f f' =>
    (List.range 3).all fun i => (List.range 2).all fun g => decide (f i g = f' i g) } exTotal
  (fun _ g g' => if g' < g then 1 / 4 else 0) (.matrix fun _ _ _ => 0) ⟨1, 1, fun _ _ _ => 1⟩
  ⟨1, 1, fun _ _ _ => 0⟩ true true 1 1 (by omega)
  (fun g _ => ⟨rfl, (exFineOk g).nonzero, (exFineOk g).phys⟩)
  (fun m g g' h => by simp [fissionMatrix, Nat.not_lt.mpr h]) (fun f f' h => by
    simp only [List.all_eq_true, List.mem_range, decide_eq_true_eq]
    exact fun i hi g hg => h i hi g hg)

end Discrete1.Props
