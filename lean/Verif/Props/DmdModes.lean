import Verif.Props.DmdExact
import Mathlib.Tactic.IntervalCases

/-! # C137: with two modes in the iteration error `fixed1d.dynamic_mode_decomp` misses the limit

`tools._svd_dmd` keeps only the singular values whose cumulated energy leaves more than the residual, so the
last one is always dropped (C31).  Here a subcritical problem is given, with two independent pairs of groups,
on which this loss shows in what the driver returns, for every SVD routine. -/

set_option linter.unusedSectionVars false
set_option linter.unusedSimpArgs false

namespace Discrete1.Props

open Finset Discrete1.Tools Discrete1.Spec Discrete1.Slab Discrete1.MultiGroup Discrete1.Drivers

section General

variable {K : Type} [Field K] [LinearOrder K] [IsStrictOrderedRing K]

/-- Two positive singular values, of which the second has more energy than the residual: one mode is kept. -/
theorem two_modes_size {residual : K} (hres : 0 ≤ residual) {S : ℕ → K} (h0 : 0 < S 0) (h1 : 0 < S 1)
    (hm : residual * (S 0 ^ 2 + S 1 ^ 2) < S 1 ^ 2) : Dmd.spos residual 2 S = [S 0] := by
  have hT : (0 : K) < S 0 ^ 2 + S 1 ^ 2 := by positivity
  have e1 : Dmd.mask residual 2 S 1 = false := by
    simp only [Dmd.mask]
    rw [energy_last S (by norm_num) (fun j h h' => by omega) h1.ne']
    simp [hres]
  have e0 : Dmd.mask residual 2 S 0 = true := by
    simp only [Dmd.mask, Dmd.energy, accum_eq_sum, sum_range_succ, sum_range_zero, zero_add]
    rw [Bool.and_eq_true]
    refine ⟨by rw [decide_eq_true_eq]; exact hT.ne', ?_⟩
    rw [decide_eq_true_eq]
    have : 1 - S 0 ^ 2 / (S 0 ^ 2 + S 1 ^ 2) = S 1 ^ 2 / (S 0 ^ 2 + S 1 ^ 2) := by field_simp; ring
    rw [this, lt_div_iff₀ hT]
    exact hm
  unfold Dmd.spos
  simp [List.range_succ, e0, e1]

open Matrix in
/-- What `tools.dmd` returns on two pairs of snapshots when it keeps one mode: the correction is a multiple of the
first left singular vector. -/
theorem toolsDmd_one_kept (svdEmpty : Option PyErr)
    (svd : ∀ n m : ℕ, Matrix (Fin n) (Fin (m + 1)) K → Svd K n m) (residual : K) (cells groups : ℕ)
    (fluxOld : ℕ → ℕ → K) (y : Buffers.Snapshots K) (A : Matrix (Fin (cells * groups)) (Fin 2) K)
    (hA : ∀ i (k : Fin 2), A i k = flatten cells groups (y.minus k) i)
    (hspos : Dmd.spos residual (svd _ 1 A).q (svd _ 1 A).S = [(svd _ 1 A).S 0]) (hS : (svd _ 1 A).S 0 ≠ 0)
    (hsolve : ∑ i, ∑ j : Fin 2, (svd _ 1 A).U i 0 * flatten cells groups (y.plus j) i * (svd _ 1 A).Vt 0 j
      ≠ (svd _ 1 A).S 0) :
    ∃ out δ, toolsDmd svdEmpty svd residual cells groups fluxOld y 3 = .ok out ∧
      ∀ i : Fin (cells * groups), flatten cells groups out i = flatten cells groups fluxOld i
        - flatten cells groups (y.plus 1) i + δ * (svd _ 1 A).U i 0 := by
  have hM : (Matrix.of fun i (k : Fin 2) => flatten cells groups (y.minus k) i) = A := by
    ext i k; rw [hA]; rfl
  obtain ⟨P, hP⟩ : ∃ P : Matrix (Fin (cells * groups)) (Fin 2) K,
      P = Matrix.of fun i (k : Fin 2) => flatten cells groups (y.plus k) i := ⟨_, rfl⟩
  have hPv : ∀ i (j : Fin 2), P i j = flatten cells groups (y.plus j) i := fun i j => by rw [hP]; rfl
  obtain ⟨d, hd⟩ : ∃ d, d = svd _ 1 A := ⟨_, rfl⟩
  rw [← hd] at hspos hS hsolve ⊢
  have hsize : Dmd.matSize residual 3 d.q d.S = 1 := by
    unfold Dmd.matSize; rw [hspos]; simp
  have hdet : (1 - Dmd.aTilde (Dmd.matSize residual 3 d.q d.S) (Matrix.of fun i k => d.U i k)
      (fun k => 1 / (Dmd.spos residual d.q d.S).getD k 0) (Matrix.of fun k j => d.Vt k j) P).det ≠ 0 := by
    rw [hspos]
    have key : ∀ s, s = 1 → (1 - Dmd.aTilde s (Matrix.of fun i k => d.U i k)
      (fun k => 1 / [d.S 0].getD k 0) (Matrix.of fun k j => d.Vt k j) P).det ≠ 0 := by
      rintro s rfl
      intro h
      apply hsolve
      rw [Matrix.det_fin_one, Dmd.aTilde, Matrix.sub_apply, Matrix.one_apply_eq, Matrix.mul_diagonal] at h
      simp only [Matrix.mul_apply, Matrix.transpose_apply, Matrix.of_apply, Fin.val_zero, List.getD_cons_zero] at h
      have h2 : (∑ x, (∑ x_1, d.U x_1 0 * P x_1 x) * d.Vt 0 x) = d.S 0 := by
        have := sub_eq_zero.mp h
        field_simp at this
        linarith
      rw [← h2, Finset.sum_comm]
      exact Finset.sum_congr rfl fun j _ => by rw [Finset.sum_mul]; exact Finset.sum_congr rfl fun i _ => by rw [hPv]
    exact key _ hsize
  have hform : ∃ δ, ∀ i, Dmd.dmd residual d.q d.U d.S d.Vt P (flatten cells groups fluxOld) i
      = flatten cells groups fluxOld i - P i 1 + δ * d.U i 0 := by
    have key : ∀ s, s = 1 → ∃ δ, ∀ i, Dmd.dmdCore s (Matrix.of fun i k => d.U i k)
        (fun k => 1 / (Dmd.spos residual d.q d.S).getD k 0) (Matrix.of fun k j => d.Vt k j) P
        (flatten cells groups fluxOld) i = flatten cells groups fluxOld i - P i 1 + δ * d.U i 0 := by
      rintro s rfl
      refine ⟨((1 - Dmd.aTilde 1 (Matrix.of fun i k => d.U i k)
        (fun k => 1 / (Dmd.spos residual d.q d.S).getD k 0) (Matrix.of fun k j => d.Vt k j) P)⁻¹ *ᵥ
        ((Matrix.of fun i (k : Fin 1) => d.U i k)ᵀ *ᵥ fun i => P i (Fin.last 1))) 0, fun i => ?_⟩
      have hmul : ∀ (M : Matrix (Fin (cells * groups)) (Fin 1) K) (v : Fin 1 → K), (M *ᵥ v) i = v 0 * M i 0 := by
        intro M v
        rw [Matrix.mulVec, dotProduct, Fin.sum_univ_one, mul_comm]
      exact congrArg _ (hmul _ _)
    exact key _ hsize
  obtain ⟨δ, hδ⟩ := hform
  refine ⟨reshape cells groups (Dmd.dmd residual d.q d.U d.S d.Vt P (flatten cells groups fluxOld)), δ, ?_,
    fun i => ?_⟩
  · unfold toolsDmd
    simp only
    rw [hM, ← hP, ← hd, if_neg hdet]
  · have hi := i.isLt
    have hg : 0 < groups := by
      rcases Nat.eq_zero_or_pos groups with h | h
      · subst h; simp at hi
      · exact h
    have : flatten cells groups (reshape cells groups
        (Dmd.dmd residual d.q d.U d.S d.Vt P (flatten cells groups fluxOld))) i
        = Dmd.dmd residual d.q d.U d.S d.Vt P (flatten cells groups fluxOld) i := by
      unfold reshape
      rw [flatten, dif_pos ⟨by rw [Nat.div_lt_iff_lt_mul hg]; exact hi, Nat.mod_lt _ hg⟩]
      congr 1
      exact Fin.ext (Nat.div_add_mod' _ _)
    rw [this, hδ, hPv]
    rfl

/-- One cell of width one, total cross section one, two directions `-1/2` and `1/2`, no inflow: the scalar flux is
half the source. -/
theorem one_cell_flux {mu sigma dx w : ℕ → K} (hmu : mu = fun n => if n = 0 then -1 / 2 else 1 / 2)
    (hs : sigma = fun _ => 1) (hdx : dx = fun _ => 1) (hw : w = fun _ => 1 / 2) {q psi : ℕ → ℕ → K} {Q : K}
    (hq : ∀ n, q n 0 = Q) (hb : AllBalanced 1 2 mu dx sigma q psi)
    (hi : SweptInflow 1 2 mu false false (fun _ => 0) (fun _ => 0) psi) : scalarCenter 2 w psi 0 = Q / 2 := by
  subst hmu hs hdx hw
  have b0 := hb 0 (by omega) 0 (by omega)
  have b1 := hb 1 (by omega) 0 (by omega)
  have i0 := hi 0 (by omega)
  have i1 := hi 1 (by omega)
  rw [hq] at b0 b1
  have n1 : ¬ (0 : K) < -1 / 2 := by norm_num
  have n2 : (0 : K) < 1 / 2 := by norm_num
  simp only [inflow, leavesReflecting, n1, n2, if_true, if_false, zero_add, one_ne_zero, ite_self, add_zero,
    Bool.false_eq_true, and_false, or_false] at i0 i1
  simp only [if_true, one_ne_zero, if_false, zero_add, div_one, one_mul] at b0 b1
  unfold scalarCenter
  rw [sum_range_succ, sum_range_one]
  rw [i0] at b0 ⊢
  rw [i1] at b1 ⊢
  linear_combination (1 / 4) * b0 + (1 / 4) * b1

end General

/-! ### The problem -/

/-- One cell, four groups, two directions, vacuum. -/
def exTwo : Problem ℚ where
  cells := 1
  groups := 4
  angles := 2
  mm := fun _ => 0
  dx := fun _ => 1
  angleX := fun n => if n = 0 then -1 / 2 else 1 / 2
  angleW := fun _ => 1 / 2
  bcL := false
  bcR := false
  geometry := 1
  pi := 3
  convIn := Slab.fluxConverged 1 (1 / 10 ^ 12)
  convOut := fluxConverged2 1 4 (1 / 10 ^ 8)

/-- Groups 0 and 1 feed each other, groups 2 and 3 feed each other, with different strength. -/
def exTwoScatter : ℕ → ℕ → ℕ → ℚ := fun _ g g' =>
  if g = 1 ∧ g' = 0 then 5 / 6 else if g = 0 ∧ g' = 1 then 144 / 305
  else if g = 3 ∧ g' = 2 then 5 / 6 else if g = 2 ∧ g' = 3 then 96 / 107 else 0

/-- An isotropic source in groups 0 and 2. -/
def exTwoExternal : Arr3 ℚ :=
  ⟨1, 4, fun _ _ g => if g = 0 then 1815848 / 3 else if g = 2 then 11025387 / 50 else 0⟩

/-- No boundary source. -/
def exTwoBoundary : Arr3 ℚ := ⟨1, 1, fun _ _ _ => 0⟩

theorem exTwoContractive : Contractive exTwo (fun _ _ => 1) exTwoScatter (9 / 10) where
  ok := fun g _ => ⟨rfl, fun n _ => by
    show (if n = 0 then (-1 / 2 : ℚ) else 1 / 2) ≠ 0
    split_ifs <;> norm_num, fun i _ => ⟨one_pos, zero_le_one⟩⟩
  fine := fun g _ n _ i _ => by
    show (1 : ℚ) * 1 ≤ 2 * |if n = 0 then (-1 / 2 : ℚ) else 1 / 2|
    split_ifs <;> norm_num [abs_div, abs_of_neg, abs_of_pos]
  weights := fun n _ => by show (0 : ℚ) ≤ 1 / 2; norm_num
  norm := by show ∑ n ∈ range 2, (1 / 2 : ℚ) = 1; norm_num
  nonneg := fun i _ g _ g' _ => by unfold exTwoScatter; split_ifs <;> norm_num
  rows := fun i _ g hg => by
    show ∑ g' ∈ range 4, exTwoScatter (exTwo.mm i) g g' ≤ 9 / 10 * 1
    have hg : g < 4 := hg
    simp only [sum_range_succ, sum_range_zero]
    unfold exTwoScatter
    interval_cases g <;> norm_num

/-- One sweep of the problem, group by group. -/
theorem exTwo_sweep {old new : ℕ → ℕ → ℚ}
    (h : sweepOnce exTwo (fun _ _ => 1) (.iso exTwoScatter) exTwoExternal exTwoBoundary old = .ok new) :
    new 0 0 = (144 / 305 * old 0 1 + 1815848 / 3) / 2 ∧ new 0 1 = 5 / 6 * new 0 0 / 2 ∧
    new 0 2 = (96 / 107 * old 0 3 + 11025387 / 50) / 2 ∧ new 0 3 = 5 / 6 * new 0 2 / 2 := by
  obtain ⟨f, h1, h2, _⟩ := oneSweepIso_spec exTwo (fun _ _ => 1) exTwoScatter exTwoExternal exTwoBoundary old
    exTwoContractive.ok
  have hf : f = new := by
    have : sweepOnce exTwo (fun _ _ => 1) (.iso exTwoScatter) exTwoExternal exTwoBoundary old = .ok f := h1
    rw [this] at h; exact Except.ok.inj h
  subst hf
  have key : ∀ g < 4, f 0 g = (exTwoExternal.val 0 0 (bidx 4 g)
      + ∑ og ∈ (range 4).erase g, exTwoScatter 0 g og * (if og < g then f 0 og else old 0 og)) / 2 := by
    intro g hg
    obtain ⟨prev, psi, s, _, _, e1, e2, e3, _⟩ := h2 g hg
    rw [e1 0 (by show 0 < 1; omega)]
    have hz : exTwoScatter 0 g g = 0 := by unfold exTwoScatter; interval_cases g <;> norm_num
    refine one_cell_flux (w := exTwo.angleW) rfl rfl rfl rfl (fun n => ?_) e2 e3
    show exTwoScatter 0 g g * prev 0 + _ + _ = _
    rw [hz, zero_mul, zero_add]
    rfl
  have k0 := key 0 (by omega)
  have k1 := key 1 (by omega)
  have k2 := key 2 (by omega)
  have k3 := key 3 (by omega)
  have r0 : (range 4).erase 0 = {1, 2, 3} := by decide
  have r1 : (range 4).erase 1 = {0, 2, 3} := by decide
  have r2 : (range 4).erase 2 = {0, 1, 3} := by decide
  have r3 : (range 4).erase 3 = {0, 1, 2} := by decide
  rw [r0] at k0
  rw [r1] at k1
  rw [r2] at k2
  rw [r3] at k3
  simp [exTwoExternal, exTwoScatter, bidx] at k0 k1 k2 k3
  refine ⟨?_, ?_, ?_, ?_⟩
  · rw [k0]; ring
  · rw [k1]
  · rw [k2]; ring
  · rw [k3]

/-- The solution of the problem. -/
theorem exTwo_solution {phi : ℕ → ℕ → ℚ} {psi : ℕ → ℕ → ℕ → ℚ}
    (h : SolvesMultigroup exTwo (fun _ _ => 1) exTwoScatter exTwoExternal exTwoBoundary phi psi) :
    phi 0 0 = 55383364 / 165 ∧ phi 0 1 = 13845841 / 99 ∧ phi 0 2 = 393238803 / 2900 ∧
    phi 0 3 = 131079601 / 2320 := by
  have key : ∀ g < 4, phi 0 g = ((∑ og ∈ range 4, exTwoScatter 0 g og * phi 0 og)
      + exTwoExternal.val 0 0 (bidx 4 g)) / 2 := by
    intro g hg
    rw [h.scalar g hg 0 (by show 0 < 1; omega)]
    exact one_cell_flux (w := exTwo.angleW) rfl rfl rfl rfl (fun n => rfl) (h.balance g hg) (h.inflow g hg)
  have k0 := key 0 (by omega)
  have k1 := key 1 (by omega)
  have k2 := key 2 (by omega)
  have k3 := key 3 (by omega)
  simp [exTwoExternal, exTwoScatter, bidx, sum_range_succ] at k0 k1 k2 k3
  refine ⟨?_, ?_, ?_, ?_⟩ <;> linarith

open Matrix in
/-- C137 is false for iteration errors with two modes.  The problem loses neutrons in every group, so its solution
exists and is unique; but for every routine that returns the (two) singular values and vectors of the
snapshot matrix, and every energy threshold below one in a thousand (the code uses `1e-9`), the flux that
`fixed1d.dynamic_mode_decomp` returns after two warm-up sweeps and three snapshot sweeps is not that solution: one
of the two modes was dropped. -/
theorem C137_violation_two_modes (svdEmpty : Option PyErr)
    (svd : ∀ n m : ℕ, Matrix (Fin n) (Fin (m + 1)) ℚ → Svd ℚ n m) (residual : ℚ) (hres : 0 ≤ residual)
    (hres' : residual ≤ 1 / 1000)
    (hsvd : ∀ A : Matrix (Fin 4) (Fin 2) ℚ,
      A = !![2928, 288; 1220, 120; 3852, 720; 1605, 300] → IsSvd A (svd 4 1 A) ∧ (svd 4 1 A).q = 2) :
    (∃ phi psi, SolvesMultigroup exTwo (fun _ _ => 1)
      (fun m g g' => exTwoScatter m g g' + fissionMatrix (.matrix fun _ _ _ => 0) m g g') exTwoExternal exTwoBoundary
      phi psi) ∧
    ∃ out, fixedDynamicModeDecomp svdEmpty svd residual exTwo (fun _ _ => 1) (.iso exTwoScatter)
        (.matrix fun _ _ _ => 0) exTwoExternal exTwoBoundary false false 2 3 = .ok (.scalar out) ∧
      ∀ phi psi, SolvesMultigroup exTwo (fun _ _ => 1)
          (fun m g g' => exTwoScatter m g g' + fissionMatrix (.matrix fun _ _ _ => 0) m g g') exTwoExternal
          exTwoBoundary phi psi → ∃ g < 4, out 0 g ≠ phi 0 g := by
  have hxs : (fun m g g' => exTwoScatter m g g' + fissionMatrix (.matrix fun _ _ _ => (0 : ℚ)) m g g')
      = exTwoScatter := by
    funext m g g'; simp [fissionMatrix]
  have htr : transferMatrix (.iso exTwoScatter) (.matrix fun _ _ _ => (0 : ℚ)) = .iso exTwoScatter :=
    congrArg Scatter.iso hxs
  rw [hxs]
  refine ⟨C74_exists exTwo (fun _ _ => 1) exTwoScatter exTwoExternal exTwoBoundary (9 / 10) (by norm_num)
    (by norm_num) exTwoContractive, ?_⟩
  obtain ⟨x, hx, hit⟩ := iterates_exist (sweepOnce exTwo (fun _ _ => 1) (.iso exTwoScatter) exTwoExternal
      exTwoBoundary) (sweepOnce_ok _ _ _ _ _ exTwoContractive.ok) (fun _ _ => 0)
  -- the values of the iterates
  obtain ⟨a0, a1, a2, a3⟩ := exTwo_sweep (hit 0)
  obtain ⟨b0, b1, b2, b3⟩ := exTwo_sweep (hit 1)
  obtain ⟨c0, c1, c2, c3⟩ := exTwo_sweep (hit 2)
  obtain ⟨d0, d1, d2, d3⟩ := exTwo_sweep (hit 3)
  obtain ⟨e0, e1, e2, e3⟩ := exTwo_sweep (hit 4)
  simp only [hx, Nat.reduceAdd, zero_add] at a0 a1 a2 a3 b0 b1 b2 b3 c0 c1 c2 c3 d0 d1 d2 d3 e0 e1 e2 e3
  norm_num at a0 a2
  rw [a0] at a1
  rw [a2] at a3
  norm_num at a1 a3
  rw [a1] at b0
  rw [a3] at b2
  norm_num at b0 b2
  rw [b0] at b1
  rw [b2] at b3
  norm_num at b1 b3
  rw [b1] at c0
  rw [b3] at c2
  norm_num at c0 c2
  rw [c0] at c1
  rw [c2] at c3
  norm_num at c1 c3
  rw [c1] at d0
  rw [c3] at d2
  norm_num at d0 d2
  rw [d0] at d1
  rw [d2] at d3
  norm_num at d1 d3
  rw [d1] at e0
  rw [d3] at e2
  norm_num at e0 e2
  rw [e0] at e1
  rw [e2] at e3
  norm_num at e1 e3
  have hn : ∀ j < 2 + 3, exTwo.convOut (x (j + 1)) (x j) = false := by
    intro j hj
    show fluxConverged2 1 4 (1 / 10 ^ 8) (x (j + 1)) (x j) = false
    unfold fluxConverged2
    rw [Bool.and_eq_false_iff]
    right
    rw [decide_eq_false_iff_not]
    simp only [accum_eq_sum, sum_range_succ, sum_range_zero]
    have hj : j < 5 := hj
    interval_cases j <;>
      simp only [Nat.reduceAdd, zero_add, hx, a0, a1, a2, a3, b0, b1, b2, b3, c0, c1, c2, c3, d0, d1, d2, d3, e0, e1,
        e2, e3] <;> norm_num
  obtain ⟨h', f, y, s1, s2, _, s4⟩ := C30_snapshots exTwo.groups
    (dmdStep exTwo (fun _ _ => 1) (.iso exTwoScatter) exTwoExternal exTwoBoundary) exTwo.convOut 2 3
    (fun _ => fun _ _ => 0) x hx (by rw [sweepOnce_eq]; exact fun j _ => hit j) hn
  obtain ⟨A, hA⟩ : ∃ A : Matrix (Fin 4) (Fin 2) ℚ, A = !![2928, 288; 1220, 120; 3852, 720; 1605, 300] := ⟨_, rfl⟩
  obtain ⟨hS, hq⟩ := hsvd A hA
  obtain ⟨d, hd⟩ : ∃ d, d = svd 4 1 A := ⟨_, rfl⟩
  rw [← hd] at hS hq
  have m0 := (s4 0 (by omega)).1 0
  have m1 := (s4 1 (by omega)).1 0
  have p0 := (s4 0 (by omega)).2 0
  have p1 := (s4 1 (by omega)).2 0
  simp only [Nat.reduceAdd] at m0 m1 p0 p1
  have hAy : ∀ i (k : Fin 2), A i k = flatten 1 4 (y.minus k) i := by
    intro i k
    unfold flatten
    rw [hA]
    fin_cases i <;> fin_cases k <;> simp [m0, m1, b0, b1, b2, b3, c0, c1, c2, c3, d0, d1, d2, d3] <;> norm_num
  -- the singular values and vectors
  have prod : ∀ i j, A i j = d.U i 0 * d.S 0 * d.Vt 0 j + d.U i 1 * d.S 1 * d.Vt 1 j := by
    intro i j
    rw [hS.product, hq, sum_range_succ, sum_range_one]
  have l00 := hS.left 0 (by omega) 0 (by omega)
  have l01 := hS.left 0 (by omega) 1 (by omega)
  have l11 := hS.left 1 (by omega) 1 (by omega)
  have r00 := (Fin.sum_univ_two fun j => d.Vt 0 j * d.Vt 0 j).symm.trans (hS.right 0 (by omega) 0 (by omega))
  have r01 := (Fin.sum_univ_two fun j => d.Vt 0 j * d.Vt 1 j).symm.trans (hS.right 0 (by omega) 1 (by omega))
  have r11 := (Fin.sum_univ_two fun j => d.Vt 1 j * d.Vt 1 j).symm.trans (hS.right 1 (by omega) 1 (by omega))
  simp only [if_true, zero_ne_one, if_false, Fin.sum_univ_four] at l00 l01 l11 r00 r01 r11
  have gram : ∀ j k, A 0 j * A 0 k + A 1 j * A 1 k + A 2 j * A 2 k + A 3 j * A 3 k
      = d.S 0 ^ 2 * d.Vt 0 j * d.Vt 0 k + d.S 1 ^ 2 * d.Vt 1 j * d.Vt 1 k := by
    intro j k
    rw [prod 0 j, prod 1 j, prod 2 j, prod 3 j, prod 0 k, prod 1 k, prod 2 k, prod 3 k]
    linear_combination d.S 0 ^ 2 * d.Vt 0 j * d.Vt 0 k * l00
      + d.S 0 * d.S 1 * (d.Vt 0 j * d.Vt 1 k + d.Vt 1 j * d.Vt 0 k) * l01
      + d.S 1 ^ 2 * d.Vt 1 j * d.Vt 1 k * l11
  have hAU : ∀ j, A 0 j * d.U 0 0 + A 1 j * d.U 1 0 + A 2 j * d.U 2 0 + A 3 j * d.U 3 0 = d.S 0 * d.Vt 0 j := by
    intro j
    rw [prod 0 j, prod 1 j, prod 2 j, prod 3 j]
    linear_combination d.S 0 * d.Vt 0 j * l00 + d.S 1 * d.Vt 1 j * l01
  have hAV : ∀ i, A i 0 * d.Vt 0 0 + A i 1 * d.Vt 0 1 = d.S 0 * d.U i 0 := by
    intro i
    rw [prod i 0, prod i 1]
    linear_combination d.U i 0 * d.S 0 * r00 + d.U i 1 * d.S 1 * r01
  have v00 : A 0 0 = 2928 := by rw [hA]; rfl
  have v10 : A 1 0 = 1220 := by rw [hA]; rfl
  have v20 : A 2 0 = 3852 := by rw [hA]; rfl
  have v30 : A 3 0 = 1605 := by rw [hA]; rfl
  have v01 : A 0 1 = 288 := by rw [hA]; rfl
  have v11 : A 1 1 = 120 := by rw [hA]; rfl
  have v21 : A 2 1 = 720 := by rw [hA]; rfl
  have v31 : A 3 1 = 300 := by rw [hA]; rfl
  have g00 := gram 0 0
  have g01 := gram 0 1
  have g11 := gram 1 1
  rw [v00, v10, v20, v30] at g00 g01
  rw [v01, v11, v21, v31] at g01 g11
  have trace : d.S 0 ^ 2 + d.S 1 ^ 2 = 28181257 := by
    linear_combination -g00 - g11 - d.S 0 ^ 2 * r00 - d.S 1 ^ 2 * r11
  have detV : (d.Vt 0 0 * d.Vt 1 1 - d.Vt 0 1 * d.Vt 1 0) ^ 2 = 1 := by
    linear_combination (d.Vt 1 0 * d.Vt 1 0 + d.Vt 1 1 * d.Vt 1 1) * r00 + r11
      - (d.Vt 0 0 * d.Vt 1 0 + d.Vt 0 1 * d.Vt 1 1) * r01
  have det : d.S 0 ^ 2 * d.S 1 ^ 2 = 1172184 ^ 2 := by
    have : d.S 0 ^ 2 * d.S 1 ^ 2 * (d.Vt 0 0 * d.Vt 1 1 - d.Vt 0 1 * d.Vt 1 0) ^ 2
        = (d.S 0 ^ 2 * d.Vt 0 0 * d.Vt 0 0 + d.S 1 ^ 2 * d.Vt 1 0 * d.Vt 1 0)
          * (d.S 0 ^ 2 * d.Vt 0 1 * d.Vt 0 1 + d.S 1 ^ 2 * d.Vt 1 1 * d.Vt 1 1)
          - (d.S 0 ^ 2 * d.Vt 0 0 * d.Vt 0 1 + d.S 1 ^ 2 * d.Vt 1 0 * d.Vt 1 1) ^ 2 := by ring
    rw [detV, mul_one, ← g00, ← g01, ← g11] at this
    rw [this]; norm_num
  have n0 : d.S 0 ≠ 0 := by intro h; rw [h] at det; norm_num at det
  have n1 : d.S 1 ≠ 0 := by intro h; rw [h] at det; norm_num at det
  have pos0 : 0 < d.S 0 := lt_of_le_of_ne (hS.nonneg 0 (by omega)) (Ne.symm n0)
  have pos1 : 0 < d.S 1 := lt_of_le_of_ne (hS.nonneg 1 (by omega)) (Ne.symm n1)
  have hspos : Dmd.spos residual d.q d.S = [d.S 0] := by
    rw [hq]
    refine two_modes_size hres pos0 pos1 ?_
    rw [trace]
    have : (1172184 : ℚ) ^ 2 ≤ 28181257 * d.S 1 ^ 2 := by
      rw [← det]
      exact mul_le_mul_of_nonneg_right (by linarith [sq_nonneg (d.S 1)]) (sq_nonneg _)
    linarith
  have hplus : ∀ i (j : Fin 2), flatten 1 4 (y.plus j) i = (if (i : ℕ) < 2 then 6 / 61 else 20 / 107) * A i j := by
    intro i j
    unfold flatten
    rw [hA]
    fin_cases i <;> fin_cases j <;> simp [p0, p1, c0, c1, c2, c3, d0, d1, d2, d3, e0, e1, e2, e3] <;> norm_num
  have hsolve : ∑ i, ∑ j : Fin 2, d.U i 0 * flatten 1 4 (y.plus j) i * d.Vt 0 j ≠ d.S 0 := by
    have : ∑ i, ∑ j : Fin 2, d.U i 0 * flatten 1 4 (y.plus j) i * d.Vt 0 j
        = ∑ i : Fin 4, (if (i : ℕ) < 2 then (6 / 61 : ℚ) else 20 / 107) * (d.S 0 * (d.U i 0 * d.U i 0)) := by
      refine sum_congr rfl fun i _ => ?_
      rw [Fin.sum_univ_two, hplus, hplus]
      linear_combination (if (i : ℕ) < 2 then (6 / 61 : ℚ) else 20 / 107) * d.U i 0 * hAV i
    rw [this]
    refine ne_of_lt ?_
    calc ∑ i : Fin 4, (if (i : ℕ) < 2 then (6 / 61 : ℚ) else 20 / 107) * (d.S 0 * (d.U i 0 * d.U i 0))
        ≤ ∑ i : Fin 4, (20 / 107 : ℚ) * (d.S 0 * (d.U i 0 * d.U i 0)) := by
          refine sum_le_sum fun i _ => mul_le_mul_of_nonneg_right (by split_ifs <;> norm_num)
            (mul_nonneg pos0.le (mul_self_nonneg _))
      _ = 20 / 107 * d.S 0 := by
          rw [Fin.sum_univ_four]
          linear_combination 20 / 107 * d.S 0 * l00
      _ < d.S 0 := by linarith
  rw [hd] at hspos n0 hsolve
  obtain ⟨out, δ, o1, o2⟩ := toolsDmd_one_kept svdEmpty svd residual 1 4 (h' f) y A hAy hspos n0 hsolve
  rw [← hd] at o2
  refine ⟨out, ?_, fun phi psi hphi => ?_⟩
  · unfold fixedDynamicModeDecomp dynamicModeDecomp
    simp only
    rw [htr, s1]
    simp only
    have : toolsDmd svdEmpty svd residual exTwo.cells exTwo.groups (h' f) y 3 = .ok out := o1
    rw [this]
    simp
  · by_contra hc
    push Not at hc
    obtain ⟨f0, f1, f2, f3⟩ := exTwo_solution hphi
    have q0 := o2 0
    have q1 := o2 1
    have q2 := o2 2
    have q3 := o2 3
    rw [s2] at q0 q1 q2 q3
    unfold flatten at q0 q1 q2 q3
    have u0 : δ * d.U 0 0 = 1728 / 55 := by
      have : out 0 0 = x 5 0 0 - y.plus 1 0 0 + δ * d.U 0 0 := q0
      rw [hc 0 (by omega), f0, p1, e0, d0] at this
      linarith
    have u1 : δ * d.U 1 0 = 144 / 11 := by
      have : out 0 1 = x 5 0 1 - y.plus 1 0 1 + δ * d.U 1 0 := q1
      rw [hc 1 (by omega), f1, p1, e1, d1] at this
      linarith
    have u2 : δ * d.U 2 0 = 4800 / 29 := by
      have : out 0 2 = x 5 0 2 - y.plus 1 0 2 + δ * d.U 2 0 := q2
      rw [hc 2 (by omega), f2, p1, e2, d2] at this
      linarith
    have u3 : δ * d.U 3 0 = 2000 / 29 := by
      have : out 0 3 = x 5 0 3 - y.plus 1 0 3 + δ * d.U 3 0 := q3
      rw [hc 3 (by omega), f3, p1, e3, d3] at this
      linarith
    have w0 := hAU 0
    have w1 := hAU 1
    have z0 := hAV 0
    have z2 := hAV 2
    rw [v00, v10, v20, v30] at w0
    rw [v01, v11, v21, v31] at w1
    rw [v00, v01] at z0
    rw [v20, v21] at z2
    -- the correction would be an eigenvector of `A Aᵀ`
    have y0 : δ * (d.S 0 * d.Vt 0 0) = 2928 * (1728 / 55) + 1220 * (144 / 11) + 3852 * (4800 / 29)
        + 1605 * (2000 / 29) := by
      linear_combination -δ * w0 + 2928 * u0 + 1220 * u1 + 3852 * u2 + 1605 * u3
    have y1 : δ * (d.S 0 * d.Vt 0 1) = 288 * (1728 / 55) + 120 * (144 / 11) + 720 * (4800 / 29)
        + 300 * (2000 / 29) := by
      linear_combination -δ * w1 + 288 * u0 + 120 * u1 + 720 * u2 + 300 * u3
    have t0 : d.S 0 ^ 2 * (1728 / 55) = 2928 * (δ * (d.S 0 * d.Vt 0 0)) + 288 * (δ * (d.S 0 * d.Vt 0 1)) := by
      linear_combination -d.S 0 ^ 2 * u0 - δ * d.S 0 * z0
    have t2 : d.S 0 ^ 2 * (4800 / 29) = 3852 * (δ * (d.S 0 * d.Vt 0 0)) + 720 * (δ * (d.S 0 * d.Vt 0 1)) := by
      linear_combination -d.S 0 ^ 2 * u2 - δ * d.S 0 * z2
    rw [y0, y1] at t0 t2
    linarith

/-! The hypotheses are met: the singular value decomposition of the snapshot matrix. -/

/-- Singular values 5304 and 221. -/
def exTwoSvd : Svd ℚ 4 1 where
  q := 2
  U := fun i k => if k = 0 then ![36 / 65, 15 / 65, 48 / 65, 20 / 65] i else ![48 / 65, 20 / 65, -36 / 65, -15 / 65] i
  S := fun k => if k = 0 then 5304 else 221
  Vt := fun k j => if k = 0 then ![84 / 85, 13 / 85] j else ![13 / 85, -84 / 85] j

theorem exTwoSvd_ok : IsSvd (!![2928, 288; 1220, 120; 3852, 720; 1605, 300] : Matrix (Fin 4) (Fin 2) ℚ) exTwoSvd where
  product := fun i j => by
    show _ = ∑ k ∈ range 2, _
    rw [sum_range_succ, sum_range_one]
    fin_cases i <;> fin_cases j <;> simp [exTwoSvd] <;> norm_num
  left := fun k hk l hl => by
    have hk : k < 2 := hk
    have hl : l < 2 := hl
    rw [Fin.sum_univ_four]
    interval_cases k <;> interval_cases l <;> simp [exTwoSvd] <;> norm_num
  right := fun k hk l hl => by
    have hk : k < 2 := hk
    have hl : l < 2 := hl
    rw [Fin.sum_univ_two]
    interval_cases k <;> interval_cases l <;> simp [exTwoSvd] <;> norm_num
  nonneg := fun k _ => by
    show 0 ≤ if k = 0 then (5304 : ℚ) else 221
    split_ifs <;> norm_num
  sorted := fun k l h hl => by
    show (if l = 0 then (5304 : ℚ) else 221) ≤ if k = 0 then (5304 : ℚ) else 221
    split_ifs <;> first | omega | norm_num

open Classical in
example := C137_violation_two_modes none
  (fun n m A => if h : n = 4 ∧ m = 1 then by obtain ⟨rfl, rfl⟩ := h; exact exTwoSvd
    else ⟨0, fun _ _ => 0, fun _ => 0, fun _ _ => 0⟩) (1 / 1000000000) (by norm_num) (by norm_num)
  (fun A hA => by subst hA; exact ⟨exTwoSvd_ok, rfl⟩)

end Discrete1.Props
