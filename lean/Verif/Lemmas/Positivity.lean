import Verif.Lemmas.Angles
import Mathlib.Tactic.LinearCombination

/-! # Positivity, damping and maximum principle of the slab sweeps -/

set_option linter.unusedSectionVars false
set_option linter.unusedSimpArgs false

namespace Discrete1.Slab

open Finset Discrete1.Tools Discrete1.Spec

variable {K : Type*} [Field K] [LinearOrder K] [IsStrictOrderedRing K]

theorem fine_coef {mu dx s : K} (hdx : 0 < dx) (h : s * dx ≤ 2 * mu) : 0 ≤ mu / dx - 1 / 2 * s := by
  have h1 : mu / dx - 1 / 2 * s = (2 * mu - s * dx) / (2 * dx) := by
    field_simp
  rw [h1]
  exact div_nonneg (by linarith) (by linarith)

/-- Positivity of one direction. -/
theorem balance_nonneg {N : ℕ} {mu : K} {dx sigma q psi : ℕ → K} (hphys : Physical N dx sigma)
    (hmu : mu ≠ 0) (hfine : FineFor N mu dx sigma) (h : CellBalance N mu dx sigma q psi)
    (hq : ∀ i < N, 0 ≤ q i) (hin : 0 ≤ inflow N mu psi) : ∀ i ≤ N, 0 ≤ psi i := by
  unfold inflow at hin
  rcases lt_or_gt_of_ne hmu with hneg | hpos
  · rw [if_neg (not_lt.mpr hneg.le)] at hin
    have key : ∀ k ≤ N, 0 ≤ psi (N - k) := by
      intro k
      induction k with
      | zero => intro _; simpa using hin
      | succ k ih =>
        intro hk
        have hi : N - (k + 1) < N := by omega
        have hprev := ih (by omega)
        have hd := bwd_den_pos hneg (hphys _ hi).1 (hphys _ hi).2
        have := (bwd_cell_iff hd.ne').mpr (h _ hi)
        rw [this]
        refine div_nonneg (add_nonneg (hq _ hi) (mul_nonneg ?_ ?_)) hd.le
        · rw [show N - (k + 1) + 1 = N - k by omega]; exact hprev
        · have hf := hfine _ hi
          rw [abs_of_neg hneg] at hf
          exact fine_coef (hphys _ hi).1 hf
    intro i hi
    have := key (N - i) (by omega)
    rwa [show N - (N - i) = i by omega] at this
  · rw [if_pos hpos] at hin
    intro i
    induction i with
    | zero => intro _; exact hin
    | succ i ih =>
      intro hi
      have hi' : i < N := by omega
      have hd := fwd_den_pos hpos (hphys _ hi').1 (hphys _ hi').2
      have := (fwd_cell_iff hd.ne').mpr (h _ hi')
      rw [this]
      refine div_nonneg (add_nonneg (hq _ hi') (mul_nonneg (ih (by omega)) ?_)) hd.le
      have hf := hfine _ hi'
      rw [abs_of_pos hpos] at hf
      exact fine_coef (hphys _ hi').1 hf

/-- Positivity of a whole sweep. -/
theorem swept_nonneg {N A : ℕ} {mu : ℕ → K} {dx sigma : ℕ → K} {q psi : ℕ → ℕ → K}
    {bcL bcR : Bool} {bL bR : ℕ → K} (hne : ∀ n < A, mu n ≠ 0) (hphys : Physical N dx sigma)
    (hfine : ∀ n < A, FineFor N (mu n) dx sigma)
    (h : AllBalanced N A mu dx sigma q psi) (hin : SweptInflow N A mu bcL bcR bL bR psi)
    (hq : ∀ n < A, ∀ i < N, 0 ≤ q n i) (hbL : ∀ n < A, 0 < mu n → 0 ≤ bL n)
    (hbR : ∀ n < A, mu n < 0 → 0 ≤ bR n) : ∀ n < A, ∀ i ≤ N, 0 ≤ psi n i := by
  intro n
  induction n using Nat.strong_induction_on with
  | _ n ih =>
    intro hn i hi
    refine balance_nonneg hphys (hne n hn) (hfine n hn) (h n hn) (hq n hn) ?_ i hi
    rw [hin n hn]
    refine add_nonneg ?_ ?_
    · split
      · next hp => exact hbL n hn hp
      · next hp => exact hbR n hn (lt_of_le_of_ne (not_lt.mp hp) (hne n hn))
    · split
      · next hc =>
        unfold outflow
        split
        · exact ih _ hc.1 (by omega) N (le_refl _)
        · exact ih _ hc.1 (by omega) 0 (Nat.zero_le _)
      · exact le_refl _

theorem scalarCenter_nonneg {A : ℕ} {w : ℕ → K} {psi : ℕ → ℕ → K} {i : ℕ} (hw : ∀ n < A, 0 ≤ w n)
    (h0 : ∀ n < A, 0 ≤ psi n i) (h1 : ∀ n < A, 0 ≤ psi n (i + 1)) : 0 ≤ scalarCenter A w psi i :=
  sum_nonneg fun n hn => mul_nonneg (hw n (mem_range.mp hn))
    (div_nonneg (add_nonneg (h0 n (mem_range.mp hn)) (h1 n (mem_range.mp hn))) (by norm_num))

theorem scalarEdge_nonneg {A : ℕ} {w : ℕ → K} {psi : ℕ → ℕ → K} {i : ℕ} (hw : ∀ n < A, 0 ≤ w n)
    (h0 : ∀ n < A, 0 ≤ psi n i) : 0 ≤ scalarEdge A w psi i :=
  sum_nonneg fun n hn => mul_nonneg (hw n (mem_range.mp hn)) (h0 n (mem_range.mp hn))

theorem cellBalance_sub {N : ℕ} {mu : K} {dx sigma q q' psi psi' : ℕ → K}
    (h : CellBalance N mu dx sigma q psi) (h' : CellBalance N mu dx sigma q' psi') :
    CellBalance N mu dx sigma (fun i => q i - q' i) (fun i => psi i - psi' i) := by
  intro i hi
  have e := h i hi
  have e' := h' i hi
  simp only
  rw [← e, ← e']; ring

/-- Adding a constant to the flux. -/
theorem cellBalance_const_sub {N : ℕ} {mu : K} {dx sigma q psi : ℕ → K} (c : K)
    (h : CellBalance N mu dx sigma q psi) :
    CellBalance N mu dx sigma (fun i => sigma i * c - q i) (fun i => c - psi i) := by
  intro i hi
  have e := h i hi
  simp only
  rw [← e]; ring

/-- Maximum principle for the difference of two sweeps: if the sources differ by at most
`sigma_i * c` then the fluxes differ by at most `c`. -/
theorem swept_diff_le {N A : ℕ} {mu : ℕ → K} {dx sigma : ℕ → K} {q q' psi psi' : ℕ → ℕ → K}
    {bcL bcR : Bool} {bL bR : ℕ → K} (hne : ∀ n < A, mu n ≠ 0) (hphys : Physical N dx sigma)
    (hfine : ∀ n < A, FineFor N (mu n) dx sigma) {c : K} (hc : 0 ≤ c)
    (h : AllBalanced N A mu dx sigma q psi) (h' : AllBalanced N A mu dx sigma q' psi')
    (hin : SweptInflow N A mu bcL bcR bL bR psi) (hin' : SweptInflow N A mu bcL bcR bL bR psi')
    (hq : ∀ n < A, ∀ i < N, q n i - q' n i ≤ sigma i * c) :
    ∀ n < A, ∀ i ≤ N, psi n i - psi' n i ≤ c := by
  intro n
  induction n using Nat.strong_induction_on with
  | _ n ih =>
    intro hn i hi
    have hb := cellBalance_const_sub c (cellBalance_sub (h n hn) (h' n hn))
    have := balance_nonneg hphys (hne n hn) (hfine n hn) hb
      (fun i hi => by have := hq n hn i hi; linarith) ?_ i hi
    · linarith
    have e : inflow N (mu n) (fun i => c - (psi n i - psi' n i))
        = c - (inflow N (mu n) (psi n) - inflow N (mu n) (psi' n)) := by
      unfold inflow; split <;> rfl
    rw [e, hin n hn, hin' n hn]
    by_cases hcc : A - 1 - n < n ∧ leavesReflecting bcL bcR (mu (A - 1 - n))
    · rw [if_pos hcc, if_pos hcc]
      have hN := ih _ hcc.1 (by omega) N (le_refl _)
      have h0 := ih _ hcc.1 (by omega) 0 (Nat.zero_le _)
      unfold outflow
      split <;> split <;> linarith
    · rw [if_neg hcc, if_neg hcc]
      linarith

theorem swept_abs_diff_le {N A : ℕ} {mu : ℕ → K} {dx sigma : ℕ → K} {q q' psi psi' : ℕ → ℕ → K}
    {bcL bcR : Bool} {bL bR : ℕ → K} (hne : ∀ n < A, mu n ≠ 0) (hphys : Physical N dx sigma)
    (hfine : ∀ n < A, FineFor N (mu n) dx sigma) {c : K} (hc : 0 ≤ c)
    (h : AllBalanced N A mu dx sigma q psi) (h' : AllBalanced N A mu dx sigma q' psi')
    (hin : SweptInflow N A mu bcL bcR bL bR psi) (hin' : SweptInflow N A mu bcL bcR bL bR psi')
    (hq : ∀ n < A, ∀ i < N, |q n i - q' n i| ≤ sigma i * c) :
    ∀ n < A, ∀ i ≤ N, |psi n i - psi' n i| ≤ c := by
  intro n hn i hi
  rw [abs_le]
  constructor
  · have := swept_diff_le hne hphys hfine hc h' h hin' hin (fun n hn i hi => by
      have := (abs_le.mp (hq n hn i hi)).1; linarith) n hn i hi
    linarith
  · exact swept_diff_le hne hphys hfine hc h h' hin hin' (fun n hn i hi =>
      (abs_le.mp (hq n hn i hi)).2) n hn i hi

theorem scalarCenter_abs_diff_le {A : ℕ} {w : ℕ → K} {psi psi' : ℕ → ℕ → K} {i : ℕ} {c : K}
    (hw : ∀ n < A, 0 ≤ w n) (hsum : ∑ n ∈ range A, w n = 1)
    (h0 : ∀ n < A, |psi n i - psi' n i| ≤ c) (h1 : ∀ n < A, |psi n (i + 1) - psi' n (i + 1)| ≤ c) :
    |scalarCenter A w psi i - scalarCenter A w psi' i| ≤ c := by
  unfold scalarCenter
  rw [← sum_sub_distrib]
  refine (abs_sum_le_sum_abs _ _).trans ?_
  calc ∑ n ∈ range A, |w n * ((psi n i + psi n (i + 1)) / 2) - w n * ((psi' n i + psi' n (i + 1)) / 2)|
      ≤ ∑ n ∈ range A, w n * c := by
        refine sum_le_sum fun n hn => ?_
        have hn := mem_range.mp hn
        rw [← mul_sub, abs_mul, abs_of_nonneg (hw n hn)]
        refine mul_le_mul_of_nonneg_left ?_ (hw n hn)
        have a0 := abs_le.mp (h0 n hn)
        have a1 := abs_le.mp (h1 n hn)
        rw [abs_le]
        constructor <;> linarith [a0.1, a0.2, a1.1, a1.2]
    _ = c := by rw [← sum_mul, hsum, one_mul]

/-- Damping in the direction of flight. -/
theorem damping_cell {mu dx s a b : K} (hmu : mu ≠ 0) (hdx : 0 < dx) (hs : 0 ≤ s)
    (h : mu * (b - a) / dx + s * ((a + b) / 2) = 0) :
    (0 < mu → |b| ≤ |a|) ∧ (mu < 0 → |a| ≤ |b|) := by
  have key : ∀ {m x y : K}, 0 < m → y * (m / dx + 1 / 2 * s) = x * (m / dx - 1 / 2 * s) → |y| ≤ |x| := by
    intro m x y hm hxy
    have hd := fwd_den_pos hm hdx hs
    have h1 : |y| * (m / dx + 1 / 2 * s) = |x| * |m / dx - 1 / 2 * s| := by
      rw [← abs_mul, ← hxy, abs_mul, abs_of_pos hd]
    have hmd : 0 < m / dx := div_pos hm hdx
    have h2 : |m / dx - 1 / 2 * s| ≤ m / dx + 1 / 2 * s := by
      rw [abs_le]; constructor <;> linarith [mul_nonneg (by norm_num : (0 : K) ≤ 1 / 2) hs]
    have h3 : |y| * (m / dx + 1 / 2 * s) ≤ |x| * (m / dx + 1 / 2 * s) := by
      rw [h1]; exact mul_le_mul_of_nonneg_left h2 (abs_nonneg _)
    exact le_of_mul_le_mul_right h3 hd
  refine ⟨fun hp => key hp ?_, fun hn => key (neg_pos.mpr hn) ?_⟩
  · linear_combination h
  · linear_combination h

end Discrete1.Slab
