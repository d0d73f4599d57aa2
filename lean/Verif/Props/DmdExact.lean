import Verif.Props.DmdDriver
import Verif.Props.Dmd
import Verif.Props.Stability
import Verif.Props.Existence
import Mathlib.Analysis.Real.Sqrt

/-! # C137: `fixed1d.dynamic_mode_decomp` is exact when the iteration error has a single mode -/

set_option linter.unusedSectionVars false
set_option linter.unusedSimpArgs false

namespace Discrete1.Props

open Finset Discrete1.Tools Discrete1.Spec Discrete1.Slab Discrete1.MultiGroup Discrete1.Drivers

variable {K : Type} [Field K] [LinearOrder K] [IsStrictOrderedRing K]

/-- What `np.linalg.svd(A, full_matrices=False)` promises: `A = U diag(S) Vt` with orthonormal columns of `U`,
orthonormal rows of `Vt`, and non-negative singular values in descending order. -/
structure IsSvd {n m : ℕ} (A : Matrix (Fin n) (Fin (m + 1)) K) (d : Svd K n m) : Prop where
  product : ∀ i j, A i j = ∑ k ∈ range d.q, d.U i k * d.S k * d.Vt k j
  left : ∀ k < d.q, ∀ l < d.q, ∑ i, d.U i k * d.U i l = if k = l then 1 else 0
  right : ∀ k < d.q, ∀ l < d.q, ∑ j, d.Vt k j * d.Vt l j = if k = l then 1 else 0
  nonneg : ∀ k < d.q, 0 ≤ d.S k
  sorted : ∀ k l, k ≤ l → l < d.q → d.S l ≤ d.S k

/-- The matrix of the snapshots `x (R + k + 1) - x (R + k)`, `k = 0 .. m`, one flattened flux per column. -/
def snapshotMatrix (cells groups : ℕ) (x : ℕ → ℕ → ℕ → K) (R m : ℕ) :
    Matrix (Fin (cells * groups)) (Fin (m + 1)) K :=
  Matrix.of fun i k => flatten cells groups (fun c g => x (R + k + 1) c g - x (R + k) c g) i

/-- A rank-one matrix has exactly one nonzero singular value, the first. -/
theorem rank_one_svd {n m : ℕ} {A : Matrix (Fin n) (Fin (m + 1)) K} {d : Svd K n m} (h : IsSvd A d)
    (u : Fin n → K) (v : Fin (m + 1) → K) (hA : ∀ i j, A i j = u i * v j) (hne : ∃ i j, A i j ≠ 0) :
    0 < d.q ∧ 0 < d.S 0 ∧ ∀ k, 0 < k → k < d.q → d.S k = 0 := by
  have hkl : ∀ k < d.q, ∀ l < d.q,
      (∑ i, d.U i k * u i) * (∑ j, d.Vt l j * v j) = if k = l then d.S k else 0 := by
    intro k hk l hl
    have h1 : (∑ i, d.U i k * u i) * (∑ j, d.Vt l j * v j) = ∑ i, ∑ j, d.U i k * A i j * d.Vt l j := by
      rw [sum_mul_sum]
      exact sum_congr rfl fun i _ => sum_congr rfl fun j _ => by rw [hA]; ring
    rw [h1]
    have h2 : ∑ i, ∑ j, d.U i k * A i j * d.Vt l j
        = ∑ r ∈ range d.q, (∑ i, d.U i k * d.U i r) * d.S r * (∑ j, d.Vt r j * d.Vt l j) := by
      simp only [h.product, mul_sum, sum_mul]
      rw [sum_comm]
      rw [sum_comm (s := range d.q)]
      refine sum_congr rfl fun j _ => ?_
      rw [sum_comm]
      exact sum_congr rfl fun r _ => sum_congr rfl fun i _ => by ring
    rw [h2]
    rw [sum_congr rfl fun r hr => by
      rw [h.left k hk r (mem_range.mp hr), h.right r (mem_range.mp hr) l hl]]
    by_cases he : k = l
    · subst he
      rw [if_pos rfl, sum_eq_single k]
      · simp
      · intro r _ hr; rw [if_neg (Ne.symm hr)]; ring
      · intro hk'; exact absurd (mem_range.mpr hk) hk'
    · rw [if_neg he]
      refine sum_eq_zero fun r _ => ?_
      by_cases hr : k = r
      · subst hr; rw [if_neg he]; ring
      · rw [if_neg hr]; ring
  obtain ⟨i, j, hij⟩ := hne
  have hsome : ∃ k < d.q, d.S k ≠ 0 := by
    by_contra hc
    push Not at hc
    refine hij ?_
    rw [h.product]
    exact sum_eq_zero fun k hk => by rw [hc k (mem_range.mp hk)]; ring
  obtain ⟨k, hk, hSk⟩ := hsome
  have hq : 0 < d.q := by omega
  have hS0 : 0 < d.S 0 := lt_of_lt_of_le (lt_of_le_of_ne (h.nonneg k hk) (Ne.symm hSk)) (h.sorted 0 k (by omega) hk)
  refine ⟨hq, hS0, fun l hl hlq => ?_⟩
  have a := hkl 0 hq 0 hq
  have b := hkl l hlq l hlq
  have c := hkl 0 hq l hlq
  rw [if_pos rfl] at a b
  rw [if_neg (by omega)] at c
  have h0 : (∑ i, d.U i 0 * u i) ≠ 0 := by
    intro hz; rw [hz, zero_mul] at a; exact hS0.ne a
  have hl0 : (∑ j, d.Vt l j * v j) = 0 := (mul_eq_zero.mp c).resolve_left h0
  rw [hl0, mul_zero] at b
  exact b.symm

open Matrix in
/-- `tools.dmd` on snapshots in geometric progression returns the point the iteration contracts to (or expands
from): the error of every snapshot is the ratio times the error of the one before. -/
theorem toolsDmd_geometric (svdEmpty : Option PyErr)
    (svd : ∀ n m : ℕ, Matrix (Fin n) (Fin (m + 1)) K → Svd K n m) (residual : K) (hres : 0 ≤ residual)
    (cells groups m : ℕ) (x : ℕ → ℕ → ℕ → K) (R : ℕ) (fluxOld : ℕ → ℕ → K) (y : Buffers.Snapshots K) (r : K)
    (hr : r ≠ 1) (hold : fluxOld = x (R + (m + 2)))
    (hminus : ∀ k < m + 1, ∀ i g, y.minus k i g = x (R + k + 1) i g - x (R + k) i g)
    (hplus : ∀ k < m + 1, ∀ i g, y.plus k i g = x (R + k + 2) i g - x (R + k + 1) i g)
    (hgeo : ∀ j, R ≤ j → j < R + (m + 1) → ∀ i < cells, ∀ g < groups,
      x (j + 2) i g - x (j + 1) i g = r * (x (j + 1) i g - x j i g))
    (hne : ∃ i < cells, ∃ g < groups, x (R + 1) i g ≠ x R i g)
    (hsvd : IsSvd (snapshotMatrix cells groups x R m) (svd _ m (snapshotMatrix cells groups x R m))) :
    ∃ out, toolsDmd svdEmpty svd residual cells groups fluxOld y (m + 2) = .ok out ∧
      ∀ i < cells, ∀ g < groups, (1 - r) * out i g = x (R + m + 2) i g - r * x (R + m + 1) i g := by
  have hin : ∀ i : Fin (cells * groups), (i : ℕ) / groups < cells ∧ (i : ℕ) % groups < groups := by
    intro i
    have hi := i.isLt
    have hg : 0 < groups := by
      rcases Nat.eq_zero_or_pos groups with h | h
      · subst h; simp at hi
      · exact h
    exact ⟨by rw [Nat.div_lt_iff_lt_mul hg]; exact hi, Nat.mod_lt _ hg⟩
  set A := snapshotMatrix cells groups x R m with hA
  have hM : (Matrix.of fun i (k : Fin (m + 1)) => flatten cells groups (y.minus k) i) = A := by
    ext i k
    rw [hA, of_apply, snapshotMatrix, of_apply]
    unfold flatten
    exact hminus k k.isLt _ _
  have hP : (Matrix.of fun i (k : Fin (m + 1)) => flatten cells groups (y.plus k) i) = r • A := by
    ext i k
    rw [hA, of_apply, Matrix.smul_apply, snapshotMatrix, of_apply, smul_eq_mul]
    unfold flatten
    rw [hplus k k.isLt]
    exact hgeo (R + k) (by omega) (by have := k.isLt; omega) _ (hin i).1 _ (hin i).2
  have hpow : ∀ k, k ≤ m + 1 → ∀ i < cells, ∀ g < groups,
      x (R + k + 1) i g - x (R + k) i g = r ^ k * (x (R + 1) i g - x R i g) := by
    intro k
    induction k with
    | zero => intro _ i _ g _; simp
    | succ k ih =>
      intro hk i hi g hg
      have := hgeo (R + k) (by omega) (by omega) i hi g hg
      rw [show R + (k + 1) = R + k + 1 by omega, show R + k + 1 + 1 = R + k + 2 by omega, this,
        ih (by omega) i hi g hg]
      ring
  obtain ⟨hq, hS, hz⟩ := rank_one_svd hsvd
    (flatten cells groups (fun c g => x (R + 1) c g - x R c g)) (fun k => r ^ (k : ℕ)) (fun i k => by
      rw [hA, snapshotMatrix, of_apply]
      unfold flatten
      beta_reduce
      rw [hpow k (by have := k.isLt; omega) _ (hin i).1 _ (hin i).2, mul_comm]) (by
      obtain ⟨i, hi, g, hg, h⟩ := hne
      refine ⟨⟨i * groups + g, by
        calc i * groups + g < i * groups + groups := by omega
          _ = (i + 1) * groups := by ring
          _ ≤ cells * groups := Nat.mul_le_mul_right _ hi⟩, 0, ?_⟩
      rw [hA, snapshotMatrix, of_apply]
      unfold flatten
      simp only [Fin.val_zero, add_zero]
      rw [show (i * groups + g) / groups = i by
          rw [show i * groups + g = g + groups * i by ring, Nat.add_mul_div_left _ _ (by omega),
            Nat.div_eq_of_lt hg, zero_add],
        show (i * groups + g) % groups = g by
          rw [show i * groups + g = g + groups * i by ring, Nat.add_mul_mod_self_left, Nat.mod_eq_of_lt hg]]
      exact sub_ne_zero.mpr h)
  set d := svd _ m A with hd
  -- the small matrix is the ratio
  have hUAV : ∑ i, ∑ j, d.U i 0 * A i j * d.Vt 0 j = d.S 0 := by
    have h2 : ∑ i, ∑ j, d.U i 0 * A i j * d.Vt 0 j
        = ∑ k ∈ range d.q, (∑ i, d.U i 0 * d.U i k) * d.S k * (∑ j, d.Vt k j * d.Vt 0 j) := by
      simp only [hsvd.product, mul_sum, sum_mul]
      rw [sum_comm]
      rw [sum_comm (s := range d.q)]
      refine sum_congr rfl fun j _ => ?_
      rw [sum_comm]
      exact sum_congr rfl fun r _ => sum_congr rfl fun i _ => by ring
    rw [h2, sum_eq_single 0]
    · rw [hsvd.left 0 hq 0 hq, hsvd.right 0 hq 0 hq]; simp
    · intro k hk h0
      rw [hz k (by omega) (mem_range.mp hk)]; ring
    · intro h; exact absurd (mem_range.mpr hq) h
  have hsolve : ∑ i, ∑ j, d.U i 0 * (r • A) i j * d.Vt 0 j ≠ d.S 0 := by
    have : ∑ i, ∑ j, d.U i 0 * (r • A) i j * d.Vt 0 j = r * d.S 0 := by
      rw [← hUAV, mul_sum]
      refine sum_congr rfl fun i _ => ?_
      rw [mul_sum]
      exact sum_congr rfl fun j _ => by rw [Matrix.smul_apply, smul_eq_mul]; ring
    rw [this]
    intro h
    exact hr (mul_right_cancel₀ hS.ne' (h.trans (one_mul _).symm))
  have hone := hsvd.left 0 hq 0 hq
  have hone' := hsvd.right 0 hq 0 hq
  rw [if_pos rfl] at hone hone'
  -- single mode: `matSize = 1`
  have hmask : ∀ i < d.q, Dmd.mask residual d.q d.S i = false := by
    intro i hi
    simp [Dmd.mask, energy_tail d.S hq hz hS.ne' (Nat.zero_le i) hi, hres]
  have hany : (List.range d.q).any (Dmd.mask residual d.q d.S) = false := by
    rw [List.any_eq_false]
    intro i hi
    rw [hmask i (List.mem_range.mp hi)]; simp
  have hfil : ∀ q', 0 < q' → q' ≤ d.q → (List.range q').filter (fun i => decide (0 < d.S i)) = [0] := by
    intro q'
    induction q' with
    | zero => intro h; omega
    | succ k ih =>
      intro _ hk
      rw [List.range_succ, List.filter_append]
      by_cases h : k = 0
      · subst h; simp [hS]
      · rw [ih (by omega) (by omega)]
        simp [hz k (by omega) (by omega)]
  have hspos : Dmd.spos residual d.q d.S = [d.S 0] := by
    unfold Dmd.spos
    rw [hany, hfil d.q hq (le_refl _)]; simp
  have hsize : Dmd.matSize residual (m + 2) d.q d.S = 1 := by
    unfold Dmd.matSize; rw [hspos]; simp
  have hdet : (1 - Dmd.aTilde (Dmd.matSize residual (m + 2) d.q d.S) (Matrix.of fun i k => d.U i k)
      (fun k => 1 / (Dmd.spos residual d.q d.S).getD k 0) (Matrix.of fun k j => d.Vt k j) (r • A)).det ≠ 0 := by
    rw [hspos]
    have key : ∀ s, s = 1 → (1 - Dmd.aTilde s (Matrix.of fun i k => d.U i k)
      (fun k => 1 / [d.S 0].getD k 0) (Matrix.of fun k j => d.Vt k j) (r • A)).det ≠ 0 := by
      rintro s rfl
      intro h
      apply hsolve
      rw [Matrix.det_fin_one, Dmd.aTilde, Matrix.sub_apply, Matrix.one_apply_eq, Matrix.mul_diagonal] at h
      simp only [Matrix.mul_apply, Matrix.transpose_apply, Matrix.of_apply, Fin.val_zero, List.getD_cons_zero] at h
      have h2 : (∑ x, (∑ x_1, d.U x_1 0 * (r • A) x_1 x) * d.Vt 0 x) = d.S 0 := by
        have := sub_eq_zero.mp h
        field_simp at this
        linarith
      rw [← h2, Finset.sum_comm]
      exact Finset.sum_congr rfl fun j _ => by rw [Finset.sum_mul]
    exact key _ hsize
  refine ⟨_, by
    unfold toolsDmd
    simp only
    rw [hM, hP, if_neg hdet], fun i hi g hg => ?_⟩
  set xP := flatten cells groups (x (R + m + 1)) with hxP
  set xL := flatten cells groups fluxOld with hxL
  have hfix := C31_single_mode_exact_partial (K := K) (n := cells * groups) (m := m) (q := d.q) residual hres
    (r • (1 : Matrix (Fin (cells * groups)) (Fin (cells * groups)) K)) (xL - r • xP) A (r • A) d.U d.S d.Vt
    (r • (1 : Matrix (Fin (m + 1)) (Fin (m + 1)) K)) xP xL hq hS hz hsvd.product hone hone'
    (by rw [Matrix.smul_mul, Matrix.one_mul]) (by rw [Matrix.mul_smul, Matrix.mul_one])
    (by rw [Matrix.smul_mulVec, Matrix.one_mulVec]; abel)
    (fun i => by
      rw [Matrix.smul_apply, smul_eq_mul, hA, snapshotMatrix, of_apply, hxL, hxP, hold]
      unfold flatten
      simp only [Fin.val_last]
      have := hgeo (R + m) (by omega) (by omega) _ (hin i).1 _ (hin i).2
      rw [← this]
      congr 1) hsolve
  have hi' : i * groups + g < cells * groups := by
    calc i * groups + g < i * groups + groups := by omega
      _ = (i + 1) * groups := by ring
      _ ≤ cells * groups := Nat.mul_le_mul_right _ hi
  have := congrFun hfix ⟨i * groups + g, hi'⟩
  rw [Matrix.smul_mulVec, Matrix.one_mulVec] at this
  simp only [Pi.add_apply, Pi.sub_apply, Pi.smul_apply, smul_eq_mul] at this
  have hP1 : xP ⟨i * groups + g, hi'⟩ = x (R + m + 1) i g := by
    have := reshape_flatten cells groups (x (R + m + 1)) i g hi hg
    rwa [reshape, dif_pos ⟨hi, hg⟩] at this
  have hL1 : xL ⟨i * groups + g, hi'⟩ = x (R + m + 2) i g := by
    have := reshape_flatten cells groups fluxOld i g hi hg
    rw [reshape, dif_pos ⟨hi, hg⟩] at this
    rw [hxL, this, hold, show R + (m + 2) = R + m + 2 by omega]
  rw [hP1, hL1] at this
  unfold reshape
  rw [dif_pos ⟨hi, hg⟩]
  linear_combination -this

/-- C137: let `x 0 = 0, x 1, ...` be the iterates of the sweep and suppose that from sweep `R` on their differences
are in geometric progression with ratio `r ≠ 1` (the iteration error has a single mode), that none of the `R + K`
sweeps meets the tolerance, that something still changes after the warm-up, and that the SVD routine
returns a singular value decomposition of the snapshot matrix.  Then `fixed1d.dynamic_mode_decomp` returns the point
from which the error of every snapshot is `r` times the error of the previous one: the limit of the iteration. -/
theorem C137_single_mode_limit_partial (svdEmpty : Option PyErr)
    (svd : ∀ n m : ℕ, Matrix (Fin n) (Fin (m + 1)) K → Svd K n m) (residual : K) (hres : 0 ≤ residual)
    (p : Problem K) (xsTotal : ℕ → ℕ → K) (scatter : Scatter K) (fission : Fission K) (external boundary : Arr3 K)
    (R snap : ℕ) (hsnap : 2 ≤ snap) (x : ℕ → ℕ → ℕ → K) (hx : x 0 = fun _ _ => 0)
    (hit : ∀ j < R + snap, sweepOnce p xsTotal (transferMatrix scatter fission) external boundary (x j)
      = .ok (x (j + 1)))
    (hn : ∀ j < R + snap, p.convOut (x (j + 1)) (x j) = false) (r : K) (hr : r ≠ 1)
    (hgeo : ∀ j, R ≤ j → j + 1 < R + snap → ∀ i < p.cells, ∀ g < p.groups,
      x (j + 2) i g - x (j + 1) i g = r * (x (j + 1) i g - x j i g))
    (hne : ∃ i < p.cells, ∃ g < p.groups, x (R + 1) i g ≠ x R i g)
    (hsvd : IsSvd (snapshotMatrix p.cells p.groups x R (snap - 2))
      (svd _ _ (snapshotMatrix p.cells p.groups x R (snap - 2)))) :
    ∃ phi, fixedDynamicModeDecomp svdEmpty svd residual p xsTotal scatter fission external boundary false false
        R snap = .ok (.scalar phi) ∧
      ∀ j, R ≤ j → j < R + snap → ∀ i < p.cells, ∀ g < p.groups,
        x (j + 1) i g - phi i g = r * (x j i g - phi i g) := by
  obtain ⟨m, rfl⟩ : ∃ m, snap = m + 2 := ⟨snap - 2, by omega⟩
  obtain ⟨h', f, y, d1, d2, _, d4⟩ := C30_snapshots p.groups
    (dmdStep p xsTotal (transferMatrix scatter fission) external boundary) p.convOut R (m + 2)
    (fun _ => fun _ _ => 0) x hx (by rw [sweepOnce_eq]; exact hit) hn
  obtain ⟨out, e1, e2⟩ := toolsDmd_geometric svdEmpty svd residual hres p.cells p.groups m x R (h' f) y r hr d2
    (fun k hk => (d4 k (by omega)).1) (fun k hk => (d4 k (by omega)).2)
    (fun j h1 h2 => hgeo j h1 (by omega)) hne hsvd
  refine ⟨out, ?_, fun j h1 h2 i hi g hg => ?_⟩
  · unfold fixedDynamicModeDecomp dynamicModeDecomp
    simp only
    rw [d1]
    simp only
    rw [e1]
    simp
  · -- downwards from the last snapshot
    have hdown : ∀ t, t ≤ m + 1 → x (R + m + 2 - t) i g - out i g = r * (x (R + m + 1 - t) i g - out i g) := by
      intro t
      induction t with
      | zero => intro _; have := e2 i hi g hg; simp only [Nat.sub_zero]; linear_combination -this
      | succ t ih =>
        intro ht
        have a := ih (by omega)
        have b := hgeo (R + m - t) (by omega) (by omega) i hi g hg
        rw [show R + m - t + 2 = R + m + 2 - t by omega, show R + m - t + 1 = R + m + 1 - t by omega] at b
        rw [show R + m + 2 - (t + 1) = R + m + 1 - t by omega, show R + m + 1 - (t + 1) = R + m - t by omega]
        linear_combination a - b
    have := hdown (R + m + 1 - j) (by omega)
    rw [show R + m + 2 - (R + m + 1 - j) = j + 1 by omega, show R + m + 1 - (R + m + 1 - j) = j by omega] at this
    exact this

/-! ### Problems whose only feedback goes through one cell of one group -/

/-- The strictly lower triangle of the scattering matrix: the transfers a sweep resolves at once. -/
def lowerPart (xs : ℕ → ℕ → ℕ → K) : ℕ → ℕ → ℕ → K := fun m g g' => if g' < g then xs m g g' else 0

/-- The only transfers to the same or to a lower-numbered group start from group `g0` in cell `i0`
(for instance fission in one cell, caused by the last group). -/
def FeedbackOnlyFrom (p : Problem K) (xs : ℕ → ℕ → ℕ → K) (i0 g0 : ℕ) : Prop :=
  (∀ i < p.cells, ∀ g < p.groups, xs (p.mm i) g g = 0) ∧
  ∀ i < p.cells, ∀ g g', g < g' → g' < p.groups → ¬(i = i0 ∧ g' = g0) → xs (p.mm i) g g' = 0

/-- The external source plus the source fed back by a flux `s` in cell `i0`, group `g0`. -/
def fedSource (p : Problem K) (xs : ℕ → ℕ → ℕ → K) (i0 g0 : ℕ) (external : Arr3 K) (s : K) : Arr3 K :=
  fullArr p fun i n g => external.val i (bidx external.angles n) (bidx external.groups g)
    + if i = i0 ∧ g < g0 then xs (p.mm i) g g0 * s else 0

theorem lower_sum {p : Problem K} {xs : ℕ → ℕ → ℕ → K} {i0 g0 : ℕ} (hg0 : g0 < p.groups)
    (hf : FeedbackOnlyFrom p xs i0 g0) (new : ℕ → ℕ → K) (old : ℕ → ℕ → K) {i g : ℕ} (hi : i < p.cells)
    (hg : g < p.groups) :
    ∑ og ∈ range p.groups, xs (p.mm i) g og * (if og < g then new i og else old i og)
      = ∑ og ∈ range p.groups, lowerPart xs (p.mm i) g og * new i og
        + if i = i0 ∧ g < g0 then xs (p.mm i) g g0 * old i0 g0 else 0 := by
  have hsplit : ∀ og ∈ range p.groups, xs (p.mm i) g og * (if og < g then new i og else old i og)
      = lowerPart xs (p.mm i) g og * new i og
        + if og = g0 then (if i = i0 ∧ g < g0 then xs (p.mm i) g g0 * old i0 g0 else 0) else 0 := by
    intro og hog
    unfold lowerPart
    by_cases h : og < g
    · rw [if_pos h, if_pos h]
      by_cases h0 : og = g0
      · subst h0; rw [if_pos rfl, if_neg (by omega), add_zero]
      · rw [if_neg h0, add_zero]
    · rw [if_neg h, if_neg h, zero_mul, zero_add]
      by_cases he : og = g
      · subst he
        rw [hf.1 i hi og hg, zero_mul]
        by_cases h0 : og = g0
        · subst h0; rw [if_pos rfl, if_neg (by omega)]
        · rw [if_neg h0]
      · by_cases h0 : og = g0
        · subst h0
          rw [if_pos rfl]
          by_cases hi0 : i = i0
          · subst hi0; rw [if_pos ⟨rfl, by omega⟩]
          · rw [if_neg (by tauto), hf.2 i hi g og (by omega) hg0 (by tauto), zero_mul]
        · rw [if_neg h0, hf.2 i hi g og (by omega) (mem_range.mp hog) (by tauto), zero_mul]
  rw [sum_congr rfl hsplit, sum_add_distrib, sum_ite_eq', if_pos (mem_range.mpr hg0)]

/-- One sweep solves the problem without feedback, driven by the feedback of the previous iterate. -/
theorem feedback_sweep {p : Problem K} {xsTotal : ℕ → ℕ → K} {xs : ℕ → ℕ → ℕ → K} {external boundary : Arr3 K}
    {i0 g0 : ℕ} (hg0 : g0 < p.groups) (hok : ∀ g < p.groups, SlabOk p xsTotal g)
    (hf : FeedbackOnlyFrom p xs i0 g0) {old new : ℕ → ℕ → K}
    (h : oneSweepIso p xsTotal xs external boundary old = .ok new) :
    ∃ psi, SolvesMultigroup p xsTotal (lowerPart xs) (fedSource p xs i0 g0 external (old i0 g0)) boundary
      new psi := by
  obtain ⟨new', h1, h2, _⟩ := oneSweepIso_spec p xsTotal xs external boundary old hok
  rw [h] at h1
  obtain rfl := Except.ok.inj h1
  choose! prev psi s h2 using h2
  refine ⟨psi, fun g hg => (h2 g hg).2.2.1, fun g hg n hn i hi => ?_, fun g hg => (h2 g hg).2.2.2.2.1⟩
  rw [(h2 g hg).2.2.2.1 n hn i hi]
  have hs := lower_sum hg0 hf new old hi hg
  rw [← add_sum_erase _ _ (mem_range.mpr hg), hf.1 i hi g hg, zero_mul, zero_add] at hs
  simp only [fedSource, fullArr, bidx_full _ _ hn, bidx_full _ _ hg]
  rw [hf.1 i hi g hg, zero_mul, zero_add, hs]
  ring

theorem lowerPart_down (xs : ℕ → ℕ → ℕ → K) (m g g' : ℕ) (h : g ≤ g') : lowerPart xs m g g' = 0 := by
  unfold lowerPart; rw [if_neg (by omega)]

/-- A solution without feedback plus a multiple of the response to a unit feedback. -/
theorem feedback_add {p : Problem K} {xsTotal : ℕ → ℕ → K} {xs : ℕ → ℕ → ℕ → K} {external boundary : Arr3 K}
    {i0 g0 : ℕ} {phi w : ℕ → ℕ → K} {psi om : ℕ → ℕ → ℕ → K} {s : K} (t : K)
    (h : SolvesMultigroup p xsTotal (lowerPart xs) (fedSource p xs i0 g0 external s) boundary phi psi)
    (hw : SolvesMultigroup p xsTotal (lowerPart xs) (fedSource p xs i0 g0 zeroBoundary 1) zeroBoundary w om) :
    SolvesMultigroup p xsTotal (lowerPart xs) (fedSource p xs i0 g0 external (s + t)) boundary
      (fun i g => phi i g + t * w i g) (fun g n i => psi g n i + t * om g n i) := by
  refine ⟨fun g hg i hi => ?_, fun g hg n hn i hi => ?_, fun g hg => ?_⟩
  · rw [h.scalar g hg i hi, hw.scalar g hg i hi]
    unfold scalarCenter
    rw [mul_sum, ← sum_add_distrib]
    exact sum_congr rfl fun n _ => by ring
  · have a := h.balance g hg n hn i hi
    have b := hw.balance g hg n hn i hi
    simp only [fedSource, fullArr, bidx_full _ _ hn, bidx_full _ _ hg, zeroBoundary] at a b ⊢
    have hs : ∑ og ∈ range p.groups, lowerPart xs (p.mm i) g og * (phi i og + t * w i og)
        = ∑ og ∈ range p.groups, lowerPart xs (p.mm i) g og * phi i og
          + t * ∑ og ∈ range p.groups, lowerPart xs (p.mm i) g og * w i og := by
      rw [mul_sum, ← sum_add_distrib]
      exact sum_congr rfl fun n _ => by ring
    rw [hs]
    by_cases hc : i = i0 ∧ g < g0
    · rw [if_pos hc] at a b ⊢
      linear_combination a + t * b
    · rw [if_neg hc] at a b ⊢
      linear_combination a + t * b
  · have := sweptInflow_add (h.inflow g hg) (sweptInflow_smul t (hw.inflow g hg))
    simpa [zeroBoundary] using this

/-- If the feedback of a flux is the one it was computed with, it solves the whole problem. -/
theorem feedback_closed {p : Problem K} {xsTotal : ℕ → ℕ → K} {xs : ℕ → ℕ → ℕ → K} {external boundary : Arr3 K}
    {i0 g0 : ℕ} (hg0 : g0 < p.groups) (hf : FeedbackOnlyFrom p xs i0 g0) {phi : ℕ → ℕ → K}
    {psi : ℕ → ℕ → ℕ → K} {s : K} (hs : s = phi i0 g0) :
    SolvesMultigroup p xsTotal (lowerPart xs) (fedSource p xs i0 g0 external s) boundary phi psi ↔
      SolvesMultigroup p xsTotal xs external boundary phi psi := by
  subst hs
  have key : ∀ g < p.groups, ∀ n < p.angles, ∀ i < p.cells,
      (∑ og ∈ range p.groups, xs (p.mm i) g og * phi i og)
        + external.val i (bidx external.angles n) (bidx external.groups g)
      = (∑ og ∈ range p.groups, lowerPart xs (p.mm i) g og * phi i og)
        + (fedSource p xs i0 g0 external (phi i0 g0)).val i
          (bidx (fedSource p xs i0 g0 external (phi i0 g0)).angles n)
          (bidx (fedSource p xs i0 g0 external (phi i0 g0)).groups g) := by
    intro g hg n hn i hi
    have := lower_sum hg0 hf phi phi hi hg
    simp only [ite_self] at this
    rw [this]
    simp only [fedSource, fullArr, bidx_full _ _ hn, bidx_full _ _ hg]
    ring
  constructor
  · intro h
    refine ⟨h.scalar, fun g hg n hn i hi => ?_, h.inflow⟩
    rw [h.balance g hg n hn i hi]
    exact (key g hg n hn i hi).symm
  · intro h
    refine ⟨h.scalar, fun g hg n hn i hi => ?_, h.inflow⟩
    rw [h.balance g hg n hn i hi]
    exact key g hg n hn i hi

/-- From the second sweep on, the change made by a sweep is a multiple of the response to a unit of feedback. -/
theorem feedback_diff {p : Problem K} {xsTotal : ℕ → ℕ → K} {xs : ℕ → ℕ → ℕ → K} {external boundary : Arr3 K}
    {i0 g0 : ℕ} (hg0 : g0 < p.groups) (hok : ∀ g < p.groups, SlabOk p xsTotal g)
    (hf : FeedbackOnlyFrom p xs i0 g0) {x : ℕ → ℕ → ℕ → K}
    (hsw : ∀ j, oneSweepIso p xsTotal xs external boundary (x j) = .ok (x (j + 1))) :
    ∃ w om, SolvesMultigroup p xsTotal (lowerPart xs) (fedSource p xs i0 g0 zeroBoundary 1) zeroBoundary w om ∧
      ∀ j, ∀ i < p.cells, ∀ g < p.groups,
        x (j + 2) i g = x (j + 1) i g + (x (j + 1) i0 g0 - x j i0 g0) * w i g := by
  obtain ⟨w, hw1, _, _⟩ := oneSweepIso_spec p xsTotal (lowerPart xs) (fedSource p xs i0 g0 zeroBoundary 1)
    zeroBoundary (fun _ _ => 0) hok
  obtain ⟨om, hw⟩ := downscatter_sweep p xsTotal (lowerPart xs) (fedSource p xs i0 g0 zeroBoundary 1)
    zeroBoundary hok (lowerPart_down xs) hw1
  refine ⟨w, om, hw, fun j i hi g hg => ?_⟩
  obtain ⟨psi, hs⟩ := feedback_sweep hg0 hok hf (hsw j)
  obtain ⟨psi', hs'⟩ := feedback_sweep hg0 hok hf (hsw (j + 1))
  have a := feedback_add (x (j + 1) i0 g0 - x j i0 g0) hs hw
  rw [add_sub_cancel] at a
  exact downscatter_unique p xsTotal (lowerPart xs) _ boundary hok (lowerPart_down xs) hs' a g hg i hi

/-- C137 without hypotheses on iterates: if the only transfers to the same or a lower-numbered group start
from one group in one cell, and the fixed-source problem has exactly one solution, then - converging or not, sub- or
supercritical - the flux `fixed1d.dynamic_mode_decomp` extrapolates after a warm-up sweep or more and two snapshots or
more is the exact solution of the multigroup equations. -/
theorem C137_single_feedback_exact_partial (svdEmpty : Option PyErr)
    (svd : ∀ n m : ℕ, Matrix (Fin n) (Fin (m + 1)) K → Svd K n m) (residual : K) (hres : 0 ≤ residual)
    (p : Problem K) (xsTotal : ℕ → ℕ → K) (scatter : ℕ → ℕ → ℕ → K) (fission : Fission K)
    (external boundary : Arr3 K) (R snap : ℕ) (hR : 1 ≤ R) (hsnap : 2 ≤ snap)
    (hok : ∀ g < p.groups, SlabOk p xsTotal g) (i0 g0 : ℕ) (hi0 : i0 < p.cells) (hg0 : g0 < p.groups)
    (hf : FeedbackOnlyFrom p (fun m g g' => scatter m g g' + fissionMatrix fission m g g') i0 g0)
    (hexists : ∃ phi psi, SolvesMultigroup p xsTotal
      (fun m g g' => scatter m g g' + fissionMatrix fission m g g') external boundary phi psi)
    (hunique : ∀ phi phi' psi psi',
      SolvesMultigroup p xsTotal (fun m g g' => scatter m g g' + fissionMatrix fission m g g') external boundary
        phi psi →
      SolvesMultigroup p xsTotal (fun m g g' => scatter m g g' + fissionMatrix fission m g g') external boundary
        phi' psi' → ∀ i < p.cells, ∀ g < p.groups, phi i g = phi' i g)
    (x : ℕ → ℕ → ℕ → K) (hx : x 0 = fun _ _ => 0)
    (hit : ∀ j, sweepOnce p xsTotal (transferMatrix (.iso scatter) fission) external boundary (x j)
      = .ok (x (j + 1)))
    (hn : ∀ j < R + snap, p.convOut (x (j + 1)) (x j) = false)
    (hsvd : IsSvd (snapshotMatrix p.cells p.groups x R (snap - 2))
      (svd _ _ (snapshotMatrix p.cells p.groups x R (snap - 2)))) :
    ∃ phi psi, fixedDynamicModeDecomp svdEmpty svd residual p xsTotal (.iso scatter) fission external boundary
        false false R snap = .ok (.scalar phi) ∧
      SolvesMultigroup p xsTotal (fun m g g' => scatter m g g' + fissionMatrix fission m g g') external boundary
        phi psi := by
  set xs : ℕ → ℕ → ℕ → K := fun m g g' => scatter m g g' + fissionMatrix fission m g g' with hxs
  have htr : transferMatrix (.iso scatter) fission = .iso xs := by
    cases fission <;> rfl
  have hsw : ∀ j, oneSweepIso p xsTotal xs external boundary (x j) = .ok (x (j + 1)) := by
    intro j; have := hit j; rw [htr] at this; exact this
  have hsol := fun j => feedback_sweep hg0 hok hf (hsw j)
  choose psi hsol using hsol
  -- the response to a unit of feedback
  obtain ⟨w, om, hw, hdiff⟩ := feedback_diff hg0 hok hf hsw
  have hgeo : ∀ j, 1 ≤ j → ∀ i < p.cells, ∀ g < p.groups,
      x (j + 2) i g - x (j + 1) i g = w i0 g0 * (x (j + 1) i g - x j i g) := by
    intro j hj i hi g hg
    obtain ⟨k, rfl⟩ : ∃ k, j = k + 1 := ⟨j - 1, by omega⟩
    have a := hdiff (k + 1) i hi g hg
    have b := hdiff k i hi g hg
    have c := hdiff k i0 hi0 g0 hg0
    rw [show k + 1 + 2 = k + 3 by rfl, show k + 1 + 1 = k + 2 by rfl] at *
    rw [a, b, c]
    ring
  by_cases hne : ∃ i < p.cells, ∃ g < p.groups, x (R + 1) i g ≠ x R i g
  · -- the ratio is not one: otherwise the response would be a second solution
    have hr : w i0 g0 ≠ 1 := by
      intro h1
      obtain ⟨i, hi, g, hg, hne⟩ := hne
      obtain ⟨k, rfl⟩ : ∃ k, R = k + 1 := ⟨R - 1, by omega⟩
      have hstep : x (k + 2) i g - x (k + 1) i g ≠ 0 := sub_ne_zero.mpr hne
      have hd := hdiff k i hi g hg
      have hδ : x (k + 1) i0 g0 - x k i0 g0 ≠ 0 := by
        intro h0; rw [h0, zero_mul, add_zero] at hd; exact hstep (sub_eq_zero.mpr hd)
      have hwne : w i g ≠ 0 := by
        intro h0; rw [h0, mul_zero, add_zero] at hd; exact hstep (sub_eq_zero.mpr hd)
      have hwhom : SolvesMultigroup p xsTotal xs zeroBoundary zeroBoundary w om :=
        (feedback_closed hg0 hf h1.symm).mp hw
      -- the response is a homogeneous solution: the solution would not be unique
      obtain ⟨phi, ps, hs⟩ := hexists
      have hs2 := (feedback_closed hg0 hf (show phi i0 g0 + 1 = phi i0 g0 + 1 * w i0 g0 by rw [h1, one_mul])).mp
        (feedback_add 1 ((feedback_closed hg0 hf rfl).mpr hs) hw)
      have := hunique _ _ _ _ hs2 hs i hi g hg
      simp only [one_mul] at this
      exact hwne (by linear_combination this)
    obtain ⟨phi, e1, e2⟩ := C137_single_mode_limit_partial svdEmpty svd residual hres p xsTotal (.iso scatter)
      fission external boundary R snap hsnap x hx (fun j _ => hit j) hn (w i0 g0) hr
      (fun j h1 _ => hgeo j (by omega)) hne hsvd
    set t := (x (R + 1) i0 g0 - x R i0 g0) / (1 - w i0 g0) with ht
    have h1r : 1 - w i0 g0 ≠ 0 := sub_ne_zero.mpr (Ne.symm hr)
    have hval : ∀ i < p.cells, ∀ g < p.groups, phi i g = x (R + 1) i g + t * w i g := by
      intro i hi g hg
      have a := e2 (R + 1) (by omega) (by omega) i hi g hg
      have b := hdiff R i hi g hg
      rw [show R + 1 + 1 = R + 2 by rfl, b] at a
      have c : (1 - w i0 g0) * phi i g = (1 - w i0 g0) * (x (R + 1) i g + t * w i g) := by
        have : (1 - w i0 g0) * t = x (R + 1) i0 g0 - x R i0 g0 := by rw [ht]; field_simp
        linear_combination -a - w i g * this
      exact mul_left_cancel₀ h1r c
    have hclose : x R i0 g0 + t = x (R + 1) i0 g0 + t * w i0 g0 := by
      have : (1 - w i0 g0) * t = x (R + 1) i0 g0 - x R i0 g0 := by rw [ht]; field_simp
      linear_combination this
    have hs := (feedback_closed hg0 hf hclose).mp (feedback_add t (hsol R) hw)
    exact ⟨phi, _, e1, solves_congr_flux hs fun i hi g hg => hval i hi g hg⟩
  · push Not at hne
    have hstat : ∀ k, ∀ i < p.cells, ∀ g < p.groups, x (R + k + 1) i g = x (R + k) i g := by
      intro k
      induction k with
      | zero => exact hne
      | succ k ih =>
        intro i hi g hg
        have a := hgeo (R + k) (by omega) i hi g hg
        rw [ih i hi g hg, sub_self, mul_zero] at a
        rw [show R + (k + 1) + 1 = R + k + 2 by ring, show R + (k + 1) = R + k + 1 by ring, sub_eq_zero.mp a,
          ih i hi g hg]
    obtain ⟨h', f, y, d1, d2, _, d4⟩ := C30_snapshots p.groups
      (dmdStep p xsTotal (transferMatrix (.iso scatter) fission) external boundary) p.convOut R snap
      (fun _ => fun _ _ => 0) x hx (by rw [sweepOnce_eq]; exact fun j _ => hit j) hn
    obtain ⟨out, e1, e2⟩ := toolsDmd_stationary svdEmpty svd residual p.cells p.groups snap hsnap (h' f) y
      (fun k hk i hi g hg => by
        rw [(d4 k hk).2 i g, sub_eq_zero]
        exact hstat (k + 1) i hi g hg)
    have hlast : x (R + snap - 1) i0 g0 = x (R + snap) i0 g0 := by
      have := hstat (snap - 1) i0 hi0 g0 hg0
      rw [show R + (snap - 1) + 1 = R + snap by omega, show R + (snap - 1) = R + snap - 1 by omega] at this
      exact this.symm
    have hs := hsol (R + snap - 1)
    rw [show R + snap - 1 + 1 = R + snap by omega] at hs
    refine ⟨out, _, ?_, solves_congr_flux ((feedback_closed hg0 hf hlast).mp hs) fun i hi g hg => by
      rw [e2 i hi g hg, d2]⟩
    unfold fixedDynamicModeDecomp dynamicModeDecomp
    simp only
    rw [d1]
    simp only
    rw [e1]
    simp

/-- C137 for problems in which every group loses neutrons: the solution exists and is unique, so
`fixed1d.dynamic_mode_decomp` extrapolates to it. -/
theorem C137_subcritical_exact_partial (svdEmpty : Option PyErr)
    (svd : ∀ n m : ℕ, Matrix (Fin n) (Fin (m + 1)) K → Svd K n m) (residual : K) (hres : 0 ≤ residual)
    (p : Problem K) (xsTotal : ℕ → ℕ → K) (scatter : ℕ → ℕ → ℕ → K) (fission : Fission K)
    (external boundary : Arr3 K) (R snap : ℕ) (hR : 1 ≤ R) (hsnap : 2 ≤ snap)
    (c : K) (hc : 0 ≤ c) (hc1 : c < 1)
    (hcon : Contractive p xsTotal (fun m g g' => scatter m g g' + fissionMatrix fission m g g') c)
    (i0 g0 : ℕ) (hi0 : i0 < p.cells) (hg0 : g0 < p.groups)
    (hf : FeedbackOnlyFrom p (fun m g g' => scatter m g g' + fissionMatrix fission m g g') i0 g0)
    (x : ℕ → ℕ → ℕ → K) (hx : x 0 = fun _ _ => 0)
    (hit : ∀ j, sweepOnce p xsTotal (transferMatrix (.iso scatter) fission) external boundary (x j)
      = .ok (x (j + 1)))
    (hn : ∀ j < R + snap, p.convOut (x (j + 1)) (x j) = false)
    (hsvd : IsSvd (snapshotMatrix p.cells p.groups x R (snap - 2))
      (svd _ _ (snapshotMatrix p.cells p.groups x R (snap - 2)))) :
    ∃ phi psi, fixedDynamicModeDecomp svdEmpty svd residual p xsTotal (.iso scatter) fission external boundary
        false false R snap = .ok (.scalar phi) ∧
      SolvesMultigroup p xsTotal (fun m g g' => scatter m g g' + fissionMatrix fission m g g') external boundary
        phi psi :=
  C137_single_feedback_exact_partial svdEmpty svd residual hres p xsTotal scatter fission external boundary R snap hR
    hsnap hcon.ok i0 g0 hi0 hg0 hf (C74_exists p xsTotal _ external boundary c hc hc1 hcon)
    (fun phi phi' psi psi' h h' => (C74_unique p xsTotal _ external boundary c hc hc1 hcon phi phi' psi psi' h h').1)
    x hx hit hn hsvd

/-! Examples -/

/-- Over the reals every rank-one matrix has a singular value decomposition. -/
theorem exists_svd_rank_one {n m : ℕ} (u : Fin n → ℝ) (v : Fin (m + 1) → ℝ) (A : Matrix (Fin n) (Fin (m + 1)) ℝ)
    (hA : ∀ i j, A i j = u i * v j) : ∃ d : Svd ℝ n m, IsSvd A d := by
  by_cases h : (∑ i, u i * u i = 0) ∨ (∑ j, v j * v j = 0)
  · refine ⟨⟨0, fun _ _ => 0, fun _ => 0, fun _ _ => 0⟩, fun i j => ?_, fun k hk => absurd hk (Nat.not_lt_zero _),
      fun k hk => absurd hk (Nat.not_lt_zero _), fun k hk => absurd hk (Nat.not_lt_zero _),
      fun k l _ hl => absurd hl (Nat.not_lt_zero _)⟩
    simp only [range_zero, sum_empty]
    rw [hA]
    rcases h with h | h
    · have := (sum_eq_zero_iff_of_nonneg fun i _ => mul_self_nonneg (u i)).mp h i (mem_univ _)
      rw [mul_self_eq_zero.mp this, zero_mul]
    · have := (sum_eq_zero_iff_of_nonneg fun j _ => mul_self_nonneg (v j)).mp h j (mem_univ _)
      rw [mul_self_eq_zero.mp this, mul_zero]
  · push Not at h
    have hu : 0 < ∑ i, u i * u i := lt_of_le_of_ne (sum_nonneg fun i _ => mul_self_nonneg _) (Ne.symm h.1)
    have hv : 0 < ∑ j, v j * v j := lt_of_le_of_ne (sum_nonneg fun i _ => mul_self_nonneg _) (Ne.symm h.2)
    have hu2 := Real.mul_self_sqrt hu.le
    have hv2 := Real.mul_self_sqrt hv.le
    have hu0 := Real.sqrt_pos.mpr hu
    have hv0 := Real.sqrt_pos.mpr hv
    set a := Real.sqrt (∑ i, u i * u i)
    set b := Real.sqrt (∑ j, v j * v j)
    refine ⟨⟨1, fun i _ => u i / a, fun _ => a * b, fun _ j => v j / b⟩, fun i j => ?_, fun k hk l hl => ?_,
      fun k hk l hl => ?_, fun k hk => by positivity, fun k l _ _ => le_refl _⟩
    · simp only [sum_range_one]
      rw [hA]; field_simp
    · simp only at hk hl ⊢
      rw [if_pos (by omega)]
      have : ∀ i, u i / a * (u i / a) = u i * u i / (a * a) := fun i => by field_simp
      rw [sum_congr rfl fun i _ => this i, ← sum_div, hu2, div_self h.1]
    · simp only at hk hl ⊢
      rw [if_pos (by omega)]
      have : ∀ i, v i / b * (v i / b) = v i * v i / (b * b) := fun i => by field_simp
      rw [sum_congr rfl fun i _ => this i, ← sum_div, hv2, div_self h.2]

open Classical in
/-- A routine that returns a singular value decomposition of every matrix that has one. -/
noncomputable def svdReal (n m : ℕ) (A : Matrix (Fin n) (Fin (m + 1)) ℝ) : Svd ℝ n m :=
  if h : ∃ d : Svd ℝ n m, IsSvd A d then h.choose else ⟨0, fun _ _ => 0, fun _ => 0, fun _ _ => 0⟩

theorem svdReal_spec {n m : ℕ} {A : Matrix (Fin n) (Fin (m + 1)) ℝ} (h : ∃ d : Svd ℝ n m, IsSvd A d) :
    IsSvd A (svdReal n m A) := by
  unfold svdReal
  rw [dif_pos h]
  exact h.choose_spec

/-- Two cells of different materials, two groups, two directions. -/
noncomputable def exLoop : Problem ℝ where
  cells := 2
  groups := 2
  angles := 2
  mm := fun i => i
  dx := fun _ => 1
  angleX := fun n => if n = 0 then -1 / 2 else 1 / 2
  angleW := fun _ => 1 / 2
  bcL := false
  bcR := false
  geometry := 1
  pi := 3
  convIn := Slab.fluxConverged 2 (1 / 10 ^ 12)
  convOut := fluxConverged2 2 2 0

/-- The second group of the second material causes emission into the first group; the first group slows down. -/
noncomputable def exLoopScatter : ℕ → ℕ → ℕ → ℝ := fun m g g' =>
  if g = 1 ∧ g' = 0 then 1 / 2 else if m = 1 ∧ g = 0 ∧ g' = 1 then 1 / 2 else 0

theorem exLoopContractive : Contractive exLoop (fun _ _ => 1) exLoopScatter (1 / 2) where
  ok := fun g _ => ⟨rfl, fun n _ => by
    show (if n = 0 then (-1 / 2 : ℝ) else 1 / 2) ≠ 0
    split_ifs <;> norm_num, fun i _ => ⟨one_pos, zero_le_one⟩⟩
  fine := fun g _ n _ i _ => by
    show (1 : ℝ) * 1 ≤ 2 * |if n = 0 then (-1 / 2 : ℝ) else 1 / 2|
    split_ifs <;> norm_num [abs_div, abs_of_neg, abs_of_pos]
  weights := fun n _ => by show (0 : ℝ) ≤ 1 / 2; norm_num
  norm := by show ∑ n ∈ range 2, (1 / 2 : ℝ) = 1; norm_num
  nonneg := fun i _ g _ g' _ => by unfold exLoopScatter; split_ifs <;> norm_num
  rows := fun i _ g hg => by
    show ∑ g' ∈ range 2, exLoopScatter (exLoop.mm i) g g' ≤ 1 / 2 * 1
    rw [sum_range_succ, sum_range_one]
    unfold exLoopScatter
    have hg : g < 2 := hg
    rcases (by omega : g = 0 ∨ g = 1) with rfl | rfl
    · by_cases h : exLoop.mm i = 1 <;> simp [h]
    · simp

theorem exLoopFeedback : FeedbackOnlyFrom exLoop exLoopScatter 1 1 := by
  refine ⟨fun i _ g _ => ?_, fun i _ g g' h1 h2 h3 => ?_⟩
  · unfold exLoopScatter
    rw [if_neg (by omega), if_neg (by omega)]
  · have h2 : g' < 2 := h2
    unfold exLoopScatter
    rw [if_neg (by omega), if_neg (fun h => h3 ⟨h.1, h.2.2⟩)]

example : ∃ phi psi, fixedDynamicModeDecomp none svdReal (1 / 1000000000) exLoop (fun _ _ => 1)
      (.iso exLoopScatter) (.matrix fun _ _ _ => 0) ⟨1, 1, fun i _ _ => (i : ℝ) + 1⟩ ⟨1, 1, fun _ _ _ => 1⟩ false false
      2 10 = .ok (.scalar phi) ∧
    SolvesMultigroup exLoop (fun _ _ => 1) exLoopScatter ⟨1, 1, fun i _ _ => (i : ℝ) + 1⟩ ⟨1, 1, fun _ _ _ => 1⟩
      phi psi := by
  have hxs : (fun m g g' => exLoopScatter m g g' + fissionMatrix (.matrix fun _ _ _ => (0 : ℝ)) m g g')
      = exLoopScatter := by
    funext m g g'; simp [fissionMatrix]
  have htr : transferMatrix (.iso exLoopScatter) (.matrix fun _ _ _ => (0 : ℝ)) = .iso exLoopScatter :=
    congrArg Scatter.iso hxs
  obtain ⟨x, hx, hit⟩ := iterates_exist (sweepOnce exLoop (fun _ _ => 1) (.iso exLoopScatter)
      ⟨1, 1, fun i _ _ => (i : ℝ) + 1⟩ ⟨1, 1, fun _ _ _ => 1⟩)
    (sweepOnce_ok _ _ _ _ _ exLoopContractive.ok) (fun _ _ => 0)
  obtain ⟨w, om, _, hd⟩ := feedback_diff (p := exLoop) (i0 := 1) (g0 := 1) (by show 1 < 2; omega) exLoopContractive.ok
    exLoopFeedback (x := x) hit
  have := C137_subcritical_exact_partial none svdReal (1 / 1000000000) (by norm_num) exLoop (fun _ _ => 1)
    exLoopScatter (.matrix fun _ _ _ => 0) ⟨1, 1, fun i _ _ => (i : ℝ) + 1⟩ ⟨1, 1, fun _ _ _ => 1⟩ 2 10 (by omega) (by omega)
    (1 / 2) (by norm_num) (by norm_num) (by rw [hxs]; exact exLoopContractive) 1 1 (by show 1 < 2; omega)
    (by show 1 < 2; omega) (by rw [hxs]; exact exLoopFeedback) x hx (by rw [htr]; exact hit)
    (fun j _ => by
      show fluxConverged2 2 2 (0 : ℝ) _ _ = false
      unfold fluxConverged2
      rw [Bool.and_eq_false_iff]
      right
      rw [decide_eq_false_iff_not, accum_eq_sum]
      push Not
      rw [show ((0 : ℝ)) ^ 2 = 0 by norm_num]
      refine sum_nonneg fun i _ => ?_
      rw [accum_eq_sum]
      exact sum_nonneg fun g _ => sq_nonneg _)
    (svdReal_spec (exists_svd_rank_one (flatten exLoop.cells exLoop.groups w)
      (fun k => x (2 + k) 1 1 - x (1 + k) 1 1) _ fun i k => by
        show flatten 2 2 (fun c g => x (2 + (k : ℕ) + 1) c g - x (2 + (k : ℕ)) c g) i = flatten 2 2 w i * _
        unfold flatten
        have hi : (i : ℕ) < 4 := i.isLt
        have h := hd (1 + k) ((i : ℕ) / 2) (by show _ < 2; omega) ((i : ℕ) % 2) (by show _ < 2; omega)
        rw [show 1 + (k : ℕ) + 2 = 2 + k + 1 by ring, show 1 + (k : ℕ) + 1 = 2 + k by ring] at h
        beta_reduce
        rw [h]; ring))
  rwa [hxs] at this

end Discrete1.Props
