import Verif.Model.Dmd
import Verif.Lemmas.Basic
import Mathlib.LinearAlgebra.Matrix.Notation
import Mathlib.Data.Real.Basic
import Mathlib.Tactic.NormNum
import Mathlib.Tactic.FinCases

/-! # C31: DMD extrapolation -/

set_option linter.unusedSectionVars false
set_option linter.unusedSimpArgs false

namespace Discrete1.Props

open Matrix Discrete1.Dmd

variable {K : Type*} [Field K] [LinearOrder K] [IsStrictOrderedRing K]

/-- C31, what holds of the extrapolation formula: when the retained factors reproduce `y_minus`
(nothing is truncated), the snapshots come from a linear iteration `x_{k+1} = A x_k + b`
(`y_plus = A y_minus`) whose snapshot range is invariant (`y_plus = y_minus C`), and the small system is
solvable, then the returned flux is an exact fixed point of the iteration.
Missing from the full claim: `_svd_dmd` does not retain all modes, see `C31_violation_drops_mode`. -/
theorem C31_lossless_exact_partial {n m r : ℕ} (A : Matrix (Fin n) (Fin n) K) (b : Fin n → K)
    (yMinus yPlus : Matrix (Fin n) (Fin (m + 1)) K) (U : Matrix (Fin n) (Fin r) K) (s : Fin r → K)
    (Vt : Matrix (Fin r) (Fin (m + 1)) K) (C : Matrix (Fin (m + 1)) (Fin (m + 1)) K)
    (xPrev xLast : Fin n → K)
    (hsvd : yMinus = U * diagonal s * Vt) (hU : Uᵀ * U = 1) (hV : Vt * Vtᵀ = 1) (hs : ∀ k, s k ≠ 0)
    (hlin : yPlus = A * yMinus) (hinv : yPlus = yMinus * C)
    (hiter : xLast = A *ᵥ xPrev + b) (hlast : ∀ i, yPlus i (Fin.last m) = xLast i - xPrev i)
    (hsolve : IsUnit (1 - Uᵀ * yPlus * Vtᵀ * diagonal fun k => 1 / s k).det) :
    A *ᵥ dmdCore r U (fun k => 1 / s k) Vt yPlus xLast + b
      = dmdCore r U (fun k => 1 / s k) Vt yPlus xLast := by
  set D := diagonal fun k => 1 / s k with hD
  have hDD : diagonal s * D = 1 := by
    rw [hD, diagonal_mul_diagonal, ← diagonal_one]
    congr 1; funext k; field_simp [hs k]
  -- A U = y_plus Vt^T D
  have hAU : A * U = yPlus * Vtᵀ * D := by
    rw [hlin, hsvd]
    calc A * U = A * (U * (1 : Matrix (Fin r) (Fin r) K)) := by rw [Matrix.mul_one]
      _ = A * (U * (diagonal s * (Vt * Vtᵀ) * D)) := by rw [hV, Matrix.mul_one (diagonal s), hDD]
      _ = _ := by simp only [Matrix.mul_assoc]
  have hproj : U * (Uᵀ * yPlus) = yPlus := by
    rw [hinv, hsvd]
    calc U * (Uᵀ * (U * diagonal s * Vt * C)) = U * ((Uᵀ * U) * (diagonal s * (Vt * C))) := by
          simp only [Matrix.mul_assoc]
      _ = _ := by rw [hU, Matrix.one_mul]; simp only [Matrix.mul_assoc]
  set T := Uᵀ * yPlus * Vtᵀ * D with hT
  have hUT : U * T = A * U := by
    rw [hT, hAU]
    calc U * (Uᵀ * yPlus * Vtᵀ * D) = (U * (Uᵀ * yPlus)) * Vtᵀ * D := by simp only [Matrix.mul_assoc]
      _ = _ := by rw [hproj]
  set d : Fin n → K := fun i => yPlus i (Fin.last m) with hd
  have hUd : U *ᵥ (Uᵀ *ᵥ d) = d := by
    have : d = yPlus *ᵥ Pi.single (Fin.last m) 1 := by
      funext i; simp [hd]
    rw [this, mulVec_mulVec, mulVec_mulVec, Matrix.mul_assoc, hproj]
  set delta := (1 - T)⁻¹ *ᵥ (Uᵀ *ᵥ d) with hdelta
  have hsol : (1 - T) *ᵥ delta = Uᵀ *ᵥ d := by
    rw [hdelta, mulVec_mulVec, mul_nonsing_inv _ hsolve, one_mulVec]
  have hw : U *ᵥ delta = A *ᵥ (U *ᵥ delta) + d := by
    have h1 : delta = T *ᵥ delta + Uᵀ *ᵥ d := by
      rw [← hsol, sub_mulVec, one_mulVec]; abel
    calc U *ᵥ delta = U *ᵥ (T *ᵥ delta + Uᵀ *ᵥ d) := by rw [← h1]
      _ = A *ᵥ (U *ᵥ delta) + d := by
        rw [mulVec_add, hUd, mulVec_mulVec delta U T, hUT, mulVec_mulVec delta A U]
  have hx : dmdCore r U (fun k => 1 / s k) Vt yPlus xLast = xPrev + U *ᵥ delta := by
    funext i
    have := hlast i
    show xLast i - yPlus i (Fin.last m) + (U *ᵥ delta) i = xPrev i + (U *ᵥ delta) i
    rw [this]; ring
  have hdx : d = xLast - xPrev := funext hlast
  rw [hx, mulVec_add]
  conv_rhs => rw [hw, hdx, hiter]
  abel

/-! ### What `_svd_dmd` keeps -/

theorem energy_last {q : ℕ} (S : ℕ → K) {i : ℕ} (hi : i < q) (hz : ∀ j, i < j → j < q → S j = 0)
    (hpos : S i ≠ 0) : energy q S i = 1 := by
  unfold energy
  rw [accum_eq_sum, accum_eq_sum]
  have : ∑ j ∈ Finset.range q, S j ^ 2 = ∑ j ∈ Finset.range (i + 1), S j ^ 2 := by
    refine (Finset.sum_subset (fun j hj => ?_) fun j hj hn => ?_).symm
    · simp only [Finset.mem_range] at hj ⊢; omega
    · simp only [Finset.mem_range] at hj hn
      rw [hz j (by omega) hj]; simp
  rw [this, div_self]
  refine ne_of_gt (Finset.sum_pos' (fun j _ => sq_nonneg _) ⟨i, by simp, by positivity⟩)

theorem energy_tail {q : ℕ} (S : ℕ → K) {i r : ℕ} (hr : r < q) (hz : ∀ j, r < j → j < q → S j = 0)
    (hpos : S r ≠ 0) (hi : r ≤ i) (hiq : i < q) : energy q S i = 1 := by
  unfold energy
  rw [accum_eq_sum, accum_eq_sum]
  have : ∑ j ∈ Finset.range q, S j ^ 2 = ∑ j ∈ Finset.range (i + 1), S j ^ 2 := by
    refine (Finset.sum_subset (fun j hj => ?_) fun j hj hn => ?_).symm
    · simp only [Finset.mem_range] at hj ⊢; omega
    · simp only [Finset.mem_range] at hj hn
      rw [hz j (by omega) hj]; simp
  rw [this, div_self]
  refine ne_of_gt (Finset.sum_pos' (fun j _ => sq_nonneg _) ⟨r, by simp; omega, by positivity⟩)

/-- C31 (violation): whenever the snapshots have at least two non-zero singular values that are not
negligible (`S 0, ..., S r` non-zero with `r ≥ 1`, rest zero, and the first one alone does not reach the
energy threshold), `_svd_dmd` retains at most `r` of the `r + 1` modes: the last non-zero mode is always
discarded, however large it is. -/
theorem C31_violation_drops_mode (residual : K) (hres : 0 ≤ residual) (kMax q r : ℕ) (S : ℕ → K)
    (hr : r < q) (hz : ∀ j, r < j → j < q → S j = 0) (hpos : S r ≠ 0)
    (h0 : residual < 1 - energy q S 0) :
    matSize residual kMax q S ≤ r := by
  unfold matSize spos
  have hany : (List.range q).any (mask residual q S) = true :=
    List.any_eq_true.mpr ⟨0, by simp; omega, by
      have hne : accum q (fun j => S j ^ 2) ≠ 0 := by
        rw [accum_eq_sum]
        exact ne_of_gt (Finset.sum_pos' (fun j _ => sq_nonneg _) ⟨r, by simpa using hr, by positivity⟩)
      simp [mask, h0, hne]⟩
  rw [if_pos hany]
  refine (min_le_right _ _).trans ?_
  rw [List.length_map]
  -- every retained index is below r
  have hsub : ((List.range q).filter (mask residual q S)).toFinset ⊆ Finset.range r := by
    intro i hi
    simp only [List.mem_toFinset, List.mem_filter, List.mem_range] at hi
    rw [Finset.mem_range]
    by_contra hc
    have := energy_tail S hr hz hpos (by omega : r ≤ i) hi.1
    have h2 := hi.2
    simp only [mask, this, sub_self, Bool.and_eq_true, decide_eq_true_eq] at h2
    exact absurd h2.2 (not_lt.mpr hres)
  have hnd : ((List.range q).filter (mask residual q S)).Nodup := (List.nodup_range).filter _
  rw [← List.toFinset_card_of_nodup hnd]
  exact (Finset.card_le_card hsub).trans (by simp)

/-- C31, the case in which the code is exact: snapshots with a single non-zero singular value
(the iteration error has one mode).  Then the SVD is kept whole and the returned flux is an exact fixed
point.  Missing: every case with two or more modes. -/
theorem C31_single_mode_exact_partial {n m q : ℕ} (residual : K) (hres : 0 ≤ residual)
    (A : Matrix (Fin n) (Fin n) K) (b : Fin n → K)
    (yMinus yPlus : Matrix (Fin n) (Fin (m + 1)) K) (U : Fin n → ℕ → K) (S : ℕ → K)
    (Vt : ℕ → Fin (m + 1) → K) (C : Matrix (Fin (m + 1)) (Fin (m + 1)) K) (xPrev xLast : Fin n → K)
    (hq : 0 < q) (hS : 0 < S 0) (hz : ∀ j, 0 < j → j < q → S j = 0)
    (hsvd : ∀ i j, yMinus i j = ∑ k ∈ Finset.range q, U i k * S k * Vt k j)
    (hU : ∑ i, U i 0 * U i 0 = 1) (hV : ∑ j, Vt 0 j * Vt 0 j = 1)
    (hlin : yPlus = A * yMinus) (hinv : yPlus = yMinus * C)
    (hiter : xLast = A *ᵥ xPrev + b) (hlast : ∀ i, yPlus i (Fin.last m) = xLast i - xPrev i)
    (hsolve : ∑ i, ∑ j, U i 0 * yPlus i j * Vt 0 j ≠ S 0) :
    A *ᵥ dmd residual q U S Vt yPlus xLast + b = dmd residual q U S Vt yPlus xLast := by
  have hmask : ∀ i < q, mask residual q S i = false := by
    intro i hi
    simp [mask, energy_tail S hq hz hS.ne' (Nat.zero_le i) hi, hres]
  have hany : (List.range q).any (mask residual q S) = false := by
    rw [List.any_eq_false]
    intro i hi
    rw [hmask i (List.mem_range.mp hi)]; simp
  have hfil : ∀ q', 0 < q' → q' ≤ q → (List.range q').filter (fun i => decide (0 < S i)) = [0] := by
    intro q'
    induction q' with
    | zero => intro h; omega
    | succ k ih =>
      intro _ hk
      rw [List.range_succ, List.filter_append]
      by_cases h : k = 0
      · subst h; simp [hS]
      · rw [ih (by omega) (by omega)]
        simp [hz k (by omega) (by omega)]
  have hspos : spos residual q S = [S 0] := by
    unfold spos
    rw [hany, hfil q hq (le_refl _)]; simp
  have hsize : matSize residual (m + 2) q S = 1 := by
    unfold matSize; rw [hspos]; simp
  have hdmd : dmd residual q U S Vt yPlus xLast
      = dmdCore 1 (Matrix.of fun i k => U i k) (fun _ => 1 / S 0) (Matrix.of fun k j => Vt k j) yPlus xLast := by
    unfold dmd
    simp only [hspos]
    have : ∀ r, r = 1 → dmdCore r (Matrix.of fun i k => U i k) (fun k => 1 / [S 0].getD k 0)
        (Matrix.of fun k j => Vt k j) yPlus xLast
        = dmdCore 1 (Matrix.of fun i k => U i k) (fun _ => 1 / S 0) (Matrix.of fun k j => Vt k j) yPlus xLast := by
      rintro r rfl
      congr 1
      funext k
      have : k = 0 := Subsingleton.elim _ _
      subst this; simp
    exact this _ hsize
  rw [hdmd]
  refine C31_lossless_exact_partial A b yMinus yPlus (Matrix.of fun i k => U i k) (fun _ => S 0)
    (Matrix.of fun k j => Vt k j) C xPrev xLast ?_ ?_ ?_ (fun _ => hS.ne') hlin hinv hiter hlast ?_
  · ext i j
    rw [hsvd i j]
    obtain ⟨q, rfl⟩ : ∃ k, q = k + 1 := ⟨q - 1, by omega⟩
    rw [Finset.sum_range_succ', Finset.sum_eq_zero fun k hk => by
      rw [hz (k + 1) (by omega) (by have := Finset.mem_range.mp hk; omega)]; ring]
    simp [Matrix.mul_apply, diagonal, Fin.sum_univ_one]
  · ext k l
    have hk : k = 0 := Subsingleton.elim _ _
    have hl : l = 0 := Subsingleton.elim _ _
    subst hk hl
    simpa [Matrix.mul_apply] using hU
  · ext k l
    have hk : k = 0 := Subsingleton.elim _ _
    have hl : l = 0 := Subsingleton.elim _ _
    subst hk hl
    simpa [Matrix.mul_apply] using hV
  · rw [isUnit_iff_ne_zero, Matrix.det_fin_one]
    intro h
    apply hsolve
    rw [Matrix.sub_apply, Matrix.one_apply_eq, Matrix.mul_diagonal] at h
    simp only [Matrix.mul_apply, Matrix.transpose_apply, Matrix.of_apply, Fin.val_zero] at h
    have h2 : (∑ x, (∑ x_1, U x_1 0 * yPlus x_1 x) * Vt 0 x) = S 0 := by
      have := sub_eq_zero.mp h
      field_simp at this
      linarith
    rw [← h2, Finset.sum_comm]
    exact Finset.sum_congr rfl fun j _ => by rw [Finset.sum_mul]

/-- Non-vacuity of `C31_single_mode_exact_partial`: `A = diag(1/2, 1/3)`, `b = (1, 0)`, `K = 2`, iterates
`(0,0), (1,0), (3/2,0)`; the returned flux is the exact fixed point `(2, 0)`. -/
example :
    let A : Matrix (Fin 2) (Fin 2) ℚ := !![1/2, 0; 0, 1/3]
    let yPlus : Matrix (Fin 2) (Fin 1) ℚ := !![1/2; 0]
    let U : Fin 2 → ℕ → ℚ := fun i _ => if i = 0 then 1 else 0
    let S : ℕ → ℚ := fun k => if k = 0 then 1 else 0
    A *ᵥ dmd (1 / 10 ^ 9) 1 U S (fun _ _ => 1) yPlus ![3/2, 0] + ![1, 0]
      = dmd (1 / 10 ^ 9) 1 U S (fun _ _ => 1) yPlus ![3/2, 0] := by
  intro A yPlus U S
  refine C31_single_mode_exact_partial (1 / 10 ^ 9) (by norm_num) A ![1, 0] !![1; 0] yPlus U S
    (fun _ _ => 1) !![1/2] ![1, 0] ![3/2, 0] (by norm_num) (by norm_num [S])
    (fun j h1 h2 => by omega) ?_ ?_ ?_ ?_ ?_ ?_ ?_ ?_
  · intro i j
    fin_cases i <;> fin_cases j <;> norm_num [U, S]
  · norm_num [U, Fin.sum_univ_two]
  · norm_num
  · ext i j
    fin_cases i <;> fin_cases j <;> norm_num [A, yPlus, Matrix.mul_apply, Fin.sum_univ_two]
  · ext i j
    fin_cases i <;> fin_cases j <;> norm_num [yPlus, Matrix.mul_apply]
  · funext i
    fin_cases i <;> norm_num [A, Matrix.mulVec, dotProduct, Fin.sum_univ_two]
  · intro i
    fin_cases i <;> norm_num [yPlus, Fin.last]
  · norm_num [U, S, yPlus, Fin.sum_univ_two]

/-- C31 (violation), a concrete linear iteration `x -> A x + b` with `A = [[0, 1/2], [1/2, 0]]`,
`b = (1, 0)`, started at `(0, 0)` with `K = 3`: the iterates are `(0,0), (1,0), (1,1/2), (5/4,1/2)`, the
snapshots have singular values `1, 1/2`, the fixed point is `(4/3, 2/3)`; the code returns `(5/4, 1/2)`,
which is not a fixed point (it merely repeats the last iterate). -/
theorem C31_violation_not_exact :
    let A : Matrix (Fin 2) (Fin 2) ℚ := !![0, 1/2; 1/2, 0]
    let b : Fin 2 → ℚ := ![1, 0]
    let yMinus : Matrix (Fin 2) (Fin 2) ℚ := !![1, 0; 0, 1/2]
    let yPlus : Matrix (Fin 2) (Fin 2) ℚ := !![0, 1/4; 1/2, 0]
    let U : Fin 2 → ℕ → ℚ := fun i k => if (i : ℕ) = k then 1 else 0
    let S : ℕ → ℚ := fun k => if k = 0 then 1 else 1/2
    let Vt : ℕ → Fin 2 → ℚ := fun k j => if (j : ℕ) = k then 1 else 0
    (∀ i j, yMinus i j = ∑ k ∈ Finset.range 2, U i k * S k * Vt k j) ∧
    yPlus = A * yMinus ∧ (1 - A).det ≠ 0 ∧
    dmd (1 / 10 ^ 9) 2 U S Vt yPlus ![5/4, 1/2] = ![5/4, 1/2] ∧
    A *ᵥ ![5/4, 1/2] + b ≠ ![5/4, 1/2] ∧ A *ᵥ ![4/3, 2/3] + b = ![4/3, 2/3] := by
  intro A b yMinus yPlus U S Vt
  refine ⟨?_, ?_, ?_, ?_, ?_, ?_⟩
  · intro i j
    fin_cases i <;> fin_cases j <;> norm_num [yMinus, U, S, Vt, Finset.sum_range_succ]
  · ext i j
    fin_cases i <;> fin_cases j <;> norm_num [A, yMinus, yPlus, Matrix.mul_apply, Fin.sum_univ_two]
  · norm_num [A, Matrix.det_fin_two]
  · have hm0 : mask (1 / 10 ^ 9 : ℚ) 2 S 0 = true := by
      norm_num [mask, energy, accum, loop, S]
    have hm1 : mask (1 / 10 ^ 9 : ℚ) 2 S 1 = false := by
      norm_num [mask, energy, accum, loop, S]
    have hspos : spos (1 / 10 ^ 9 : ℚ) 2 S = [1] := by
      unfold spos
      rw [show List.range 2 = [0, 1] from rfl]
      simp only [List.any_cons, hm0, Bool.true_or, if_true, List.filter_cons, hm1, List.filter_nil,
        Bool.false_eq_true, if_false, List.map_cons, List.map_nil]
      simp [S]
    have hsize : matSize (1 / 10 ^ 9 : ℚ) (1 + 2) 2 S = 1 := by
      unfold matSize; rw [hspos]; rfl
    have key : ∀ r, r = 1 → dmdCore r (Matrix.of fun i k => U i k) (fun k => 1 / [(1 : ℚ)].getD k 0)
        (Matrix.of fun k j => Vt k j) yPlus ![5/4, 1/2] = ![5/4, 1/2] := by
      rintro r rfl
      unfold dmdCore
      have hT : ((Matrix.of fun (i : Fin 2) (k : Fin 1) => U i k)ᵀ : Matrix (Fin 1) (Fin 2) ℚ) * yPlus
          * ((Matrix.of fun (k : Fin 1) (j : Fin 2) => Vt k j)ᵀ : Matrix (Fin 2) (Fin 1) ℚ)
          * diagonal (fun k : Fin 1 => 1 / [(1 : ℚ)].getD k 0) = 0 := by
        ext i j
        have hi : i = 0 := Subsingleton.elim _ _
        have hj : j = 0 := Subsingleton.elim _ _
        subst hi hj
        norm_num [Matrix.mul_apply, Fin.sum_univ_two, U, Vt, yPlus, Matrix.transpose_apply, Matrix.of_apply]
      simp only
      rw [aTilde, hT, sub_zero, inv_one, one_mulVec]
      funext i
      fin_cases i <;>
        norm_num [Matrix.mulVec, dotProduct, Fin.sum_univ_two, U, yPlus, Matrix.transpose_apply, Matrix.of_apply, Fin.last]
    unfold dmd
    simp only [hspos]
    exact key _ hsize
  · intro h
    have := congrFun h 1
    norm_num [A, b, Matrix.mulVec, dotProduct, Fin.sum_univ_two] at this
  · funext i
    fin_cases i <;> norm_num [A, b, Matrix.mulVec, dotProduct, Fin.sum_univ_two]

end Discrete1.Props
