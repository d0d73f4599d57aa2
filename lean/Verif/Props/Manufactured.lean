import Verif.Model.Manufactured
import Verif.Lemmas.Basic
import Mathlib.Analysis.SpecialFunctions.Integrals.Basic
import Mathlib.Tactic.IntervalCases
import Mathlib.Tactic.LinearCombination
import Mathlib.Tactic.Positivity
import Mathlib.Data.List.GetD

/-!
# Manufactured solutions and accuracy utilities (C68, C92, C93)
-/

set_option linter.unusedSectionVars false
set_option linter.unusedSimpArgs false

namespace Discrete1.Props

open Discrete1 Discrete1.Manufactured

/-! ## Specification: the continuous transport equation -/

/-- `psi x mu` satisfies, at the point `(x, mu)`, the one-group transport equation
`mu dpsi/dx + sigmaT psi = sigmaS / 2 * int_{-1}^{1} psi(x, m) dm + q`. -/
def SolvesAt (psi : ℝ → ℝ → ℝ) (sigmaT sigmaS q x mu : ℝ) : Prop :=
  ∃ d, HasDerivAt (fun y => psi y mu) d x ∧
    (sigmaS ≠ 0 → IntervalIntegrable (psi x) MeasureTheory.volume (-1) 1) ∧
    mu * d + sigmaT * psi x mu = sigmaS / 2 * (∫ m in (-1 : ℝ)..1, psi x m) + q

/-- Time-dependent version without scattering:
`(1 / v) dpsi/dt + mu dpsi/dx + sigmaT psi = q`. -/
def SolvesTimeAt (psi : ℝ → ℝ → ℝ → ℝ) (v sigmaT q t x mu : ℝ) : Prop :=
  ∃ dt dx, HasDerivAt (fun s => psi s x mu) dt t ∧ HasDerivAt (fun y => psi t y mu) dx x ∧
    1 / v * dt + mu * dx + sigmaT * psi t x mu = q

/-- The field a solution routine samples: its value for the single point `x` and ordinate `mu`. -/
def field (sol : (ℕ → ℝ) → (ℕ → ℝ) → ℕ → ℕ → ℝ) (x mu : ℝ) : ℝ := sol (fun _ => x) (fun _ => mu) 0 0

/-- The field a time-dependent solution routine samples. -/
def fieldT (sol : (ℕ → ℝ) → (ℕ → ℝ) → (ℕ → ℝ) → ℕ → ℕ → ℕ → ℝ) (t x mu : ℝ) : ℝ :=
  sol (fun _ => x) (fun _ => mu) (fun _ => t) 0 0 0

open Real

/-! ## C92: sources are transport residuals -/

theorem hasDerivAt_decay (c x mu : ℝ) (h : mu ≠ 0) :
    HasDerivAt (fun y => exp ((c - y) / mu)) (-(1 / mu) * exp ((c - x) / mu)) x := by
  have h1 : HasDerivAt (fun y : ℝ => (c - y) / mu) (-(1 / mu)) x := by
    have := ((hasDerivAt_id x).const_sub c).div_const mu
    exact this.congr_deriv (by norm_num <;> ring)
  have := h1.exp
  rw [mul_comm]
  exact this

/-- Cases 01 and 02: absorber with `sigmaT = 1` and the constant sources of the test problems. -/
theorem C92_ss_01_02 (x mu : ℕ → ℝ) (i n : ℕ) (h : mu n ≠ 0) :
    SolvesAt (field solSs01) 1 0 1 (x i) (mu n) ∧ SolvesAt (field solSs02) 1 0 (1 / 2) (x i) (mu n) ∧
    (mu n > 0 → field solSs01 0 (mu n) = 1 ∧ field solSs02 0 (mu n) = 1) ∧
    (mu n < 0 → field solSs01 1 (mu n) = 0 ∧ field solSs02 1 (mu n) = 0) := by
  refine ⟨?_, ?_, ?_, ?_⟩
  · unfold SolvesAt field solSs01
    by_cases hp : mu n > 0
    · refine ⟨0, ?_, by simp, by simp [hp]⟩
      simp only [hp, if_true]
      exact hasDerivAt_const _ _
    · refine ⟨1 / mu n * exp ((1 - x i) / mu n), ?_, by simp, ?_⟩
      · simp only [hp, if_false]
        have := (hasDerivAt_decay 1 (x i) (mu n) h).const_sub 1
        exact this.congr_deriv (by norm_num <;> ring)
      · simp only [hp, if_false]
        field_simp
        ring
  · unfold SolvesAt field solSs02
    by_cases hp : mu n > 0
    · refine ⟨-(1 / mu n) * (0.5 * exp (-x i / mu n)), ?_, by simp, ?_⟩
      · simp only [hp, if_true]
        have := ((hasDerivAt_decay 0 (x i) (mu n) h).const_mul 0.5).const_add 0.5
        simp only [zero_sub] at this
        exact this.congr_deriv (by norm_num <;> ring)
      · simp only [hp, if_true]
        field_simp
        ring
    · refine ⟨1 / mu n * (0.5 * exp ((1 - x i) / mu n)), ?_, by simp, ?_⟩
      · simp only [hp, if_false]
        have := ((hasDerivAt_decay 1 (x i) (mu n) h).const_mul 0.5).const_sub 0.5
        exact this.congr_deriv (by norm_num <;> ring)
      · simp only [hp, if_false]
        field_simp
        ring
  · intro hp
    simp only [field, solSs01, solSs02, hp, if_true]
    norm_num
  · intro hp
    simp only [field, solSs01, solSs02, not_lt.mpr hp.le, gt_iff_lt, if_false]
    norm_num

theorem integral_affine_exp (a b : ℝ) :
    IntervalIntegrable (fun m => a + b * exp m) MeasureTheory.volume (-1) 1 ∧
    (∫ m in (-1 : ℝ)..1, (a + b * exp m)) = 2 * a + b * (exp 1 - exp (-1)) := by
  have hi : IntervalIntegrable (fun m => b * exp m) MeasureTheory.volume (-1) 1 :=
    (continuous_const.mul continuous_exp).intervalIntegrable _ _
  refine ⟨(continuous_const.add (continuous_const.mul continuous_exp)).intervalIntegrable _ _, ?_⟩
  rw [intervalIntegral.integral_add (by simp) hi, intervalIntegral.integral_const,
    intervalIntegral.integral_const_mul, integral_exp]
  simp only [smul_eq_mul]
  ring

/-- Case 03: the built-in source and boundary belong to the built-in solution (`sigmaT = 1`,
`sigmaS = 0.9`, `0 ≤ x ≤ 1`), at every point and ordinate. -/
theorem C92_ss_03 (x mu : ℕ → ℝ) (i n : ℕ) :
    SolvesAt (field solSs03) 1 0.9 (extSs03 x mu i n) (x i) (mu n) ∧
    solSs03 x mu i n = field solSs03 (x i) (mu n) ∧
    bndSs03 mu 0 n = field solSs03 0 (mu n) ∧ bndSs03 mu 1 n = field solSs03 1 (mu n) := by
  refine ⟨⟨0.25 * (2 * x i) * exp (mu n), ?_, ?_, ?_⟩, rfl, ?_, ?_⟩
  · unfold field solSs03
    have := (((hasDerivAt_pow 2 (x i)).const_mul 0.25).mul_const (exp (mu n))).const_add 0.5
    exact this.congr_deriv (by norm_num <;> ring)
  · intro _
    exact (integral_affine_exp 0.5 (0.25 * x i ^ 2)).1
  · have := (integral_affine_exp 0.5 (0.25 * x i ^ 2)).2
    unfold field solSs03 extSs03
    rw [this]
    ring
  · simp [bndSs03, field, solSs03]
  · simp [bndSs03, field, solSs03]

theorem field04_left (y m : ℝ) (h : y ≤ 1) : field solSs04 y m = -2 * y ^ 2 + 4 * y := by
  simp only [field, solSs04, masked, not_lt.mpr h, gt_iff_lt, if_false, h, if_true]
  ring

theorem field04_right (y m : ℝ) (h : 1 < y) : field solSs04 y m = 0.25 * y + 1.75 := by
  simp only [field, solSs04, masked, h, gt_iff_lt, if_true]
  ring

theorem field05_left (y m : ℝ) (h : y ≤ 1) : field solSs05 y m = -2 * exp m * y ^ 2 + 8 * y := by
  simp only [field, solSs05, masked, not_lt.mpr h, gt_iff_lt, if_false, h, if_true]
  ring

theorem field05_right (y m : ℝ) (h : 1 < y) :
    field solSs05 y m = 2 * exp m * y + 4 * (2 - exp m) := by
  simp only [field, solSs05, masked, h, gt_iff_lt, if_true]
  ring

/-- The scattering cross section of the two-material problems. -/
noncomputable def twoMaterial (x : ℝ) : ℝ := if x < 1 then 0.3 else 0.9

/-- Case 04: away from the interface the built-in source belongs to the built-in solution, and the
boundary values are the solution's edge values. -/
theorem C92_ss_04 (x mu : ℕ → ℝ) (i n : ℕ) :
    (x i ≠ 1 → SolvesAt (field solSs04) 1 (twoMaterial (x i)) (extSs04 x mu i n) (x i) (mu n)) ∧
    solSs04 x mu i n = field solSs04 (x i) (mu n) ∧
    bndSs04 0 = field solSs04 0 (mu n) ∧ bndSs04 1 = field solSs04 2 (mu n) := by
  refine ⟨?_, rfl, ?_, ?_⟩
  · intro hne
    rcases lt_or_gt_of_ne hne with h | h
    · have hm : ∀ m, field solSs04 (x i) m = -2 * x i ^ 2 + 4 * x i := fun m => field04_left _ _ h.le
      refine ⟨-4 * x i + 4, ?_, ?_, ?_⟩
      · have h1 : HasDerivAt (fun y : ℝ => -2 * y ^ 2 + 4 * y) (-4 * x i + 4) (x i) := by
          have := ((hasDerivAt_pow 2 (x i)).const_mul (-2)).add ((hasDerivAt_id (x i)).const_mul 4)
          exact this.congr_deriv (by norm_num <;> ring)
        refine h1.congr_of_eventuallyEq ?_
        filter_upwards [Iio_mem_nhds h] with y hy
        exact field04_left _ _ (le_of_lt hy)
      · intro _; rw [funext hm]; exact intervalIntegrable_const
      · simp only [hm, intervalIntegral.integral_const, smul_eq_mul, twoMaterial, h, if_true]
        have hx : x i < 0.5 * 2 := by norm_num; exact h
        have hx' : ¬ x i > 0.5 * 2 := by norm_num; exact h.le
        simp only [extSs04, masked, hx, hx', if_true, if_false, quasi04]
        ring
    · have hm : ∀ m, field solSs04 (x i) m = 0.25 * x i + 1.75 := fun m => field04_right _ _ h
      refine ⟨0.25, ?_, ?_, ?_⟩
      · have h1 : HasDerivAt (fun y : ℝ => 0.25 * y + 1.75) 0.25 (x i) := by
          have := ((hasDerivAt_id (x i)).const_mul 0.25).add_const 1.75
          exact this.congr_deriv (by norm_num <;> ring)
        refine h1.congr_of_eventuallyEq ?_
        filter_upwards [Ioi_mem_nhds h] with y hy
        exact field04_right _ _ hy
      · intro _; rw [funext hm]; exact intervalIntegrable_const
      · simp only [hm, intervalIntegral.integral_const, smul_eq_mul, twoMaterial, not_lt.mpr h.le, if_false]
        have hx : x i > 0.5 * 2 := by norm_num; exact h
        simp only [extSs04, masked, hx, if_true, if_false, scatter04]
        ring
  · rw [field04_left _ _ (by norm_num)]; simp [bndSs04]
  · rw [field04_right _ _ (by norm_num)]; simp [bndSs04]; norm_num

/-- Case 05, angle dependent. -/
theorem C92_ss_05 (x mu : ℕ → ℝ) (i n : ℕ) :
    (x i ≠ 1 → SolvesAt (field solSs05) 1 (twoMaterial (x i)) (extSs05 x mu i n) (x i) (mu n)) ∧
    solSs05 x mu i n = field solSs05 (x i) (mu n) ∧
    bndSs05 0 = field solSs05 0 (mu n) ∧ bndSs05 1 = field solSs05 2 (mu n) := by
  refine ⟨?_, rfl, ?_, ?_⟩
  · intro hne
    rcases lt_or_gt_of_ne hne with h | h
    · have hm : field solSs05 (x i) = fun m => 8 * x i + (-2 * x i ^ 2) * exp m := by
        funext m; rw [field05_left _ _ h.le]; ring
      refine ⟨-4 * exp (mu n) * x i + 8, ?_, ?_, ?_⟩
      · have h1 : HasDerivAt (fun y : ℝ => -2 * exp (mu n) * y ^ 2 + 8 * y)
            (-4 * exp (mu n) * x i + 8) (x i) := by
          have := ((hasDerivAt_pow 2 (x i)).const_mul (-2 * exp (mu n))).add
            ((hasDerivAt_id (x i)).const_mul 8)
          exact this.congr_deriv (by norm_num <;> ring)
        refine h1.congr_of_eventuallyEq ?_
        filter_upwards [Iio_mem_nhds h] with y hy
        exact field05_left _ _ (le_of_lt hy)
      · intro _; rw [hm]; exact (integral_affine_exp _ _).1
      · have hi := (integral_affine_exp (8 * x i) (-2 * x i ^ 2)).2
        rw [hm]
        simp only [hi, twoMaterial, h, if_true]
        have hx : x i < 0.5 * 2 := by norm_num; exact h
        have hx' : ¬ x i > 0.5 * 2 := by norm_num; exact h.le
        simp only [extSs05, masked, hx, hx', if_true, if_false, quasi05]
        ring
    · have hm : field solSs05 (x i) = fun m => 8 + (2 * x i - 4) * exp m := by
        funext m; rw [field05_right _ _ h]; ring
      refine ⟨2 * exp (mu n), ?_, ?_, ?_⟩
      · have h1 : HasDerivAt (fun y : ℝ => 2 * exp (mu n) * y + 4 * (2 - exp (mu n)))
            (2 * exp (mu n)) (x i) := by
          have := ((hasDerivAt_id (x i)).const_mul (2 * exp (mu n))).add_const (4 * (2 - exp (mu n)))
          exact this.congr_deriv (by norm_num <;> ring)
        refine h1.congr_of_eventuallyEq ?_
        filter_upwards [Ioi_mem_nhds h] with y hy
        exact field05_right _ _ hy
      · intro _; rw [hm]; exact (integral_affine_exp _ _).1
      · have hi := (integral_affine_exp 8 (2 * x i - 4)).2
        rw [hm]
        simp only [hi, twoMaterial, not_lt.mpr h.le, if_false]
        have hx : x i > 0.5 * 2 := by norm_num; exact h
        simp only [extSs05, masked, hx, if_true, if_false, scatter05]
        ring
  · rw [field05_left _ _ (by norm_num)]; simp [bndSs05]
  · rw [field05_right _ _ (by norm_num)]; simp [bndSs05]; ring

/-- Time-dependent cases with `v = sigmaT = 1`, at every time, point and ordinate; case 02 with its
boundary values on `0 ≤ x ≤ pi`, case 01 with the constant boundary value 2 on `0 ≤ x ≤ 2`. -/
theorem C92_td (x mu t : ℕ → ℝ) (c i n : ℕ) :
    SolvesTimeAt (fieldT solTd01) 1 1 (extTd01 x mu t c i n) (t c) (x i) (mu n) ∧
    solTd01 x mu t c i n = fieldT solTd01 (t c) (x i) (mu n) ∧
    fieldT solTd01 (t c) 0 (mu n) = 2 ∧ fieldT solTd01 (t c) 2 (mu n) = 2 ∧
    SolvesTimeAt (fieldT solTd02) 1 1 (extTd02 x mu t c i n) (t c) (x i) (mu n) ∧
    solTd02 x mu t c i n = fieldT solTd02 (t c) (x i) (mu n) ∧
    bndTd02 mu t c 0 n = fieldT solTd02 (t c) 0 (mu n) ∧
    bndTd02 mu t c 1 n = fieldT solTd02 (t c) π (mu n) := by
  have hs1 : ∀ a b : ℝ, sin (a - b) = - sin (b - a) := fun a b => by
    rw [← Real.sin_neg]; congr 1; ring
  have hc1 : ∀ a b : ℝ, cos (a - b) = cos (b - a) := fun a b => by
    rw [← Real.cos_neg]; congr 1; ring
  have tder : ∀ k x t : ℝ, HasDerivAt (fun s => sin (x - k * s)) (cos (x - k * t) * (-k)) t := by
    intro k x t
    have h1 : HasDerivAt (fun s : ℝ => x - k * s) (-k) t := by
      have := ((hasDerivAt_id t).const_mul k).const_sub x
      exact this.congr_deriv (by norm_num <;> ring)
    exact h1.sin
  have xder : ∀ k x t : ℝ, HasDerivAt (fun y => sin (y - k * t)) (cos (x - k * t)) x := by
    intro k x t
    have := ((hasDerivAt_id x).sub_const (k * t)).sin
    exact this.congr_deriv (by norm_num <;> ring)
  refine ⟨⟨(-x i) * (x i - 2) * (cos (x i - 0.1 * t c) * (-0.1)),
      (-2 * x i + 2) * sin (x i - 0.1 * t c) + (-x i) * (x i - 2) * cos (x i - 0.1 * t c), ?_, ?_, ?_⟩, rfl,
    ?_, ?_, ⟨cos (x i - 0.5 * t c) * (-0.5), cos (x i - 0.5 * t c), ?_, ?_, ?_⟩, rfl, ?_, ?_⟩
  · exact ((tder 0.1 (x i) (t c)).const_mul ((-x i) * (x i - 2))).add_const 2
  · have hp : HasDerivAt (fun y : ℝ => (-y) * (y - 2)) (-2 * x i + 2) (x i) := by
      have := (hasDerivAt_id (x i)).neg.mul ((hasDerivAt_id (x i)).sub_const 2)
      exact this.congr_deriv (by norm_num <;> ring)
    exact (hp.mul (xder 0.1 (x i) (t c))).add_const 2
  · simp only [fieldT, solTd01, extTd01]
    rw [hs1 (0.1 * t c) (x i), hc1 (0.1 * t c) (x i)]
    ring
  · simp [fieldT, solTd01]
  · simp [fieldT, solTd01]
  · exact ((tder 0.5 (x i) (t c)).const_add 1).add_const (cos (mu n))
  · exact ((xder 0.5 (x i) (t c)).const_add 1).add_const (cos (mu n))
  · simp only [fieldT, solTd02, extTd02]
    rw [hs1 (0.5 * t c) (x i), hc1 (0.5 * t c) (x i)]
    ring
  · simp [fieldT, bndTd02, solTd02]
  · simp [fieldT, bndTd02, solTd02]

/-- VIOLATION of C92 at the interface: on every uniform mesh of `[0, 2]` with an odd number of cells,
the centre of the middle cell is the interface, where both built-in two-material sources are zero,
although in case 04 the equation requires 1.4 from the left and `0.25 mu + 0.2` from the right. -/
theorem C92_violation_interface (k : ℕ) (mu : ℕ → ℝ) (n : ℕ) :
    let x : ℕ → ℝ := fun i => (2 * i + 1) / (2 * k + 1)
    x k = 1 ∧ extSs04 x mu k n = 0 ∧ extSs05 x mu k n = 0 ∧
    (∃ d, HasDerivWithinAt (fun y => field solSs04 y (mu n)) d (Set.Iic 1) 1 ∧
      mu n * d + field solSs04 1 (mu n) - 0.3 * field solSs04 1 (mu n) = 1.4) ∧
    (∃ d, HasDerivWithinAt (fun y => field solSs04 y (mu n)) d (Set.Ici 1) 1 ∧
      mu n * d + field solSs04 1 (mu n) - 0.9 * field solSs04 1 (mu n) = 0.25 * mu n + 0.2) := by
  intro x
  have hx : x k = 1 := div_self (by positivity)
  refine ⟨hx, ?_, ?_, ⟨0, ?_, ?_⟩, ⟨0.25, ?_, ?_⟩⟩
  · simp only [extSs04, masked, hx]; norm_num
  · simp only [extSs05, masked, hx]; norm_num
  · have h1 : HasDerivAt (fun y : ℝ => -2 * y ^ 2 + 4 * y) 0 1 := by
      have := ((hasDerivAt_pow 2 (1 : ℝ)).const_mul (-2)).add ((hasDerivAt_id (1 : ℝ)).const_mul 4)
      exact this.congr_deriv (by norm_num <;> ring)
    exact h1.hasDerivWithinAt.congr (fun y hy => field04_left y _ hy) (field04_left 1 _ le_rfl)
  · rw [field04_left _ _ le_rfl]; norm_num
  · have h1 : HasDerivAt (fun y : ℝ => 0.25 * y + 1.75) 0.25 1 := by
      have := ((hasDerivAt_id (1 : ℝ)).const_mul 0.25).add_const 1.75
      exact this.congr_deriv (by norm_num <;> ring)
    refine h1.hasDerivWithinAt.congr (fun y hy => ?_) ?_
    · rcases eq_or_lt_of_le (show (1 : ℝ) ≤ y from hy) with rfl | hlt
      · rw [field04_left _ _ le_rfl]; norm_num
      · exact field04_right y _ hlt
    · rw [field04_left _ _ le_rfl]; norm_num
  · rw [field04_left _ _ le_rfl]; norm_num; ring

/-! ## C68: accuracy utilities -/

/-- `order_accuracy` recovers the order of any power-law error, for every refinement ratio. -/
theorem C68_order_accuracy (C h p r : ℝ) (hC : C ≠ 0) (hh : 0 < h) (hr : 0 < r) (hr1 : r ≠ 1) :
    orderAccuracy (C * h ^ p) (C * (h / r) ^ p) r = p := by
  unfold orderAccuracy
  have hl : log r ≠ 0 := by
    intro h0
    rcases Real.log_eq_zero.mp h0 with h | h | h <;> [exact hr.ne' h; exact hr1 h; linarith]
  have : C * h ^ p / (C * (h / r) ^ p) = r ^ p := by
    rw [Real.div_rpow hh.le hr.le]
    have h1 : h ^ p ≠ 0 := (Real.rpow_pos_of_pos hh p).ne'
    have h2 : r ^ p ≠ 0 := (Real.rpow_pos_of_pos hr p).ne'
    field_simp
  rw [this, Real.log_rpow hr]
  field_simp

/-- The example of the tests: second-order errors on meshes refined by two. -/
example : orderAccuracy (3 * (0.1 : ℝ) ^ (2 : ℝ)) (3 * (0.1 / 2 : ℝ) ^ (2 : ℝ)) 2 = 2 :=
  C68_order_accuracy 3 0.1 2 2 (by norm_num) (by norm_num) (by norm_num) (by norm_num)

/-! ### Wynn's epsilon algorithm -/

section Wynn

variable {K : Type} [Field K] [LinearOrder K] [IsStrictOrderedRing K]

/-- The epsilon table by columns: column `c`, row `r`. -/
def eps (s : ℕ → K) : ℕ → ℕ → K
  | 0, _ => 0
  | 1, r => s (r - 1)
  | c + 2, r => eps s c (r - 1) + (eps s (c + 1) r - eps s (c + 1) (r - 1))⁻¹

theorem eps_step (s : ℕ → K) (c r : ℕ) :
    eps s (c + 2) r = eps s c (r - 1) + (eps s (c + 1) r - eps s (c + 1) (r - 1))⁻¹ := by rw [eps]

theorem wynnCell_eq (i j : ℕ) (e : ℕ → ℕ → K) :
    wynnCell i j e
      = set2 e (i + 2) (j + 2) (e (i + 1) j + (e (i + 2) (j + 1) - e (i + 1) (j + 1))⁻¹) := by
  unfold wynnCell
  split
  · rename_i h; rw [h, inv_zero, add_zero]
  · rw [one_div]

theorem set2_same (e : ℕ → ℕ → K) (i j : ℕ) (v : K) : set2 e i j v i j = v := by
  simp [set2, setAt]

theorem set2_ne (e : ℕ → ℕ → K) (i j a b : ℕ) (v : K) (h : a ≠ i ∨ b ≠ j) : set2 e i j v a b = e a b := by
  unfold set2 setAt
  by_cases ha : a = i
  · subst ha
    rw [Function.update_self, Function.update_of_ne (by tauto)]
  · rw [Function.update_of_ne ha]

theorem wynnFill_ok (lst : List K) (N : ℕ) (h : N ≤ lst.length) :
    ∃ e, loopE N (wynnFill lst) (fun _ _ => 0) = .ok e ∧ (∀ r, e r 0 = 0) ∧
      ∀ r, 1 ≤ r → r ≤ N → e r 1 = lst.getD (r - 1) 0 := by
  induction N with
  | zero => exact ⟨_, rfl, fun _ => rfl, fun r h1 h2 => absurd h1 (by omega)⟩
  | succ N ih =>
    obtain ⟨e, he, h0, h1⟩ := ih (by omega)
    refine ⟨set2 e (N + 1) 1 lst[N], ?_, ?_, ?_⟩
    · rw [loopE_succ, he]
      simp [wynnFill, List.getElem?_eq_getElem (show N < lst.length by omega)]
    · intro r; rw [set2_ne _ _ _ _ _ _ (Or.inr (by omega)), h0]
    · intro r hr hr'
      by_cases hN : r = N + 1
      · subst hN
        rw [set2_same, Nat.add_sub_cancel, List.getD_eq_getElem _ _ (by omega)]
      · rw [set2_ne _ _ _ _ _ _ (Or.inl hN), h1 r hr (by omega)]

theorem wynnRow_ok (s : ℕ → K) (i N : ℕ) (hi : i + 2 ≤ N) (e : ℕ → ℕ → K) (h0 : ∀ r, e r 0 = 0)
    (h1 : ∀ r, 1 ≤ r → r ≤ N → e r 1 = s (r - 1))
    (ht : ∀ r c, 1 ≤ c → c ≤ r → r ≤ i + 1 → e r c = eps s c r) :
    (∀ r, wynnRow i e r 0 = 0) ∧ (∀ r, 1 ≤ r → r ≤ N → wynnRow i e r 1 = s (r - 1)) ∧
    (∀ r c, 1 ≤ c → c ≤ r → r ≤ i + 2 → wynnRow i e r c = eps s c r) := by
  have key := loop_induction (fun j e' => (∀ r, e' r 0 = 0) ∧ (∀ r, 1 ≤ r → r ≤ N → e' r 1 = s (r - 1)) ∧
    (∀ r c, 1 ≤ c → c ≤ r → r ≤ i + 1 → e' r c = eps s c r) ∧
    (∀ c, 1 ≤ c → c ≤ j + 1 → e' (i + 2) c = eps s c (i + 2))) (i + 1) (wynnCell i) e
    ⟨h0, h1, ht, by
      intro c hc hc'
      have : c = 1 := by omega
      subst this
      rw [h1 _ (by omega) hi]; rfl⟩
    (by
      rintro j hj e' ⟨g0, g1, gt, gr⟩
      rw [wynnCell_eq]
      refine ⟨?_, ?_, ?_, ?_⟩
      · intro r; rw [set2_ne _ _ _ _ _ _ (Or.inr (by omega)), g0]
      · intro r hr hr'; rw [set2_ne _ _ _ _ _ _ (Or.inr (by omega)), g1 r hr hr']
      · intro r c hc hcr hr; rw [set2_ne _ _ _ _ _ _ (Or.inl (by omega)), gt r c hc hcr hr]
      · intro c hc hc'
        by_cases hcj : c = j + 2
        · subst hcj
          rw [set2_same, gr (j + 1) (by omega) le_rfl, gt (i + 1) (j + 1) (by omega) (by omega) le_rfl]
          rw [eps]
          congr 1
          rcases Nat.eq_zero_or_pos j with rfl | hj0
          · rw [g0]; rfl
          · rw [gt (i + 1) j (by omega) (by omega) le_rfl]; rfl
        · rw [set2_ne _ _ _ _ _ _ (Or.inr hcj), gr c hc (by omega)])
  obtain ⟨g0, g1, gt, gr⟩ := key
  refine ⟨g0, g1, ?_⟩
  intro r c hc hcr hr
  by_cases hri : r ≤ i + 1
  · exact gt r c hc hcr hri
  · have : r = i + 2 := by omega
    subst this
    exact gr c hc (by omega)

/-- The code computes the corner of the epsilon table. -/
theorem wynnEpsilon_eq (lst : List K) (rank : ℕ) (h : 2 * rank + 1 ≤ lst.length) :
    wynnEpsilon lst rank = .ok |eps (fun k => lst.getD k 0) (2 * rank + 1) (2 * rank + 1)| := by
  obtain ⟨e, he, h0, h1⟩ := wynnFill_ok lst _ h
  unfold wynnEpsilon
  rw [he]
  have key := loop_induction (fun i e' => (∀ r, e' r 0 = 0) ∧
    (∀ r, 1 ≤ r → r ≤ 2 * rank + 1 → e' r 1 = lst.getD (r - 1) 0) ∧
    (∀ r c, 1 ≤ c → c ≤ r → r ≤ i + 1 → e' r c = eps (fun k => lst.getD k 0) c r)) (2 * rank) wynnRow e
    ⟨h0, h1, by
      intro r c hc hcr hr
      have h1r : r = 1 := by omega
      have h1c : c = 1 := by omega
      subst h1r; subst h1c
      rw [h1 1 le_rfl (by omega)]; rfl⟩
    (by
      rintro i hi e' ⟨g0, g1, gt⟩
      exact wynnRow_ok (fun k => lst.getD k 0) i (2 * rank + 1) (by omega) e' g0 g1 gt)
  show Except.ok |loop (2 * rank) wynnRow e (2 * rank + 1) (2 * rank + 1)| = _
  rw [key.2.2 (2 * rank + 1) (2 * rank + 1) (by omega) le_rfl (by omega)]

/-- A list shorter than `2 * rank + 1` raises `IndexError`; entries beyond that are never read. -/
theorem C68_wynn_reads (lst : List K) (rank : ℕ) :
    (lst.length < 2 * rank + 1 → wynnEpsilon lst rank = .error .indexError) ∧
    (2 * rank + 1 ≤ lst.length → wynnEpsilon lst rank = wynnEpsilon (lst.take (2 * rank + 1)) rank) := by
  constructor
  · intro h
    have : ∀ N, lst.length < N → loopE N (wynnFill lst) (fun _ _ => (0 : K)) = .error .indexError := by
      intro N
      induction N with
      | zero => intro hN; omega
      | succ N ih =>
        intro hN
        rw [loopE_succ]
        by_cases hl : lst.length < N
        · rw [ih hl]
        · obtain ⟨e, he, _, _⟩ := wynnFill_ok lst N (by omega)
          rw [he]
          simp [wynnFill, List.getElem?_eq_none (show lst.length ≤ N by omega)]
    unfold wynnEpsilon
    rw [this _ h]
  · intro h
    have key : ∀ N, N ≤ 2 * rank + 1 → loopE N (wynnFill lst) (fun _ _ => (0 : K))
        = loopE N (wynnFill (lst.take (2 * rank + 1))) (fun _ _ => 0) := by
      intro N
      induction N with
      | zero => intro _; rfl
      | succ N ih =>
        intro hN
        rw [loopE_succ, loopE_succ, ih (by omega)]
        have : ∀ e : ℕ → ℕ → K, wynnFill lst N e = wynnFill (lst.take (2 * rank + 1)) N e := by
          intro e
          unfold wynnFill
          rw [List.getElem?_take_of_lt (by omega)]
        split <;> simp [this]
    unfold wynnEpsilon
    rw [key _ le_rfl]

/-- Rank one is exact on every sequence `L + a q^n` with `q` different from 0 and 1. -/
theorem C68_wynn_geometric (L a q : K) (hq0 : q ≠ 0) (hq1 : q ≠ 1) (rest : List K) :
    wynnEpsilon ((L + a) :: (L + a * q) :: (L + a * q ^ 2) :: rest) 1 = .ok |L| := by
  rw [wynnEpsilon_eq _ _ (by simp)]
  congr 2
  by_cases ha : a = 0
  · subst ha; simp [eps]
  · simp only [eps, List.getD_cons_succ, List.getD_cons_zero, Nat.mul_one, Nat.reduceAdd, Nat.reduceSub,
      zero_add]
    have h1 : q - 1 ≠ 0 := sub_ne_zero.mpr hq1
    have e1 : (L + a * q ^ 2 - (L + a * q))⁻¹ = 1 / (a * q * (q - 1)) := by
      rw [inv_eq_one_div]; congr 1; ring
    have e2 : (L + a * q - (L + a))⁻¹ = 1 / (a * (q - 1)) := by
      rw [inv_eq_one_div]; congr 1; ring
    rw [e1, e2]
    have e3 : 1 / (a * q * (q - 1)) - 1 / (a * (q - 1)) = -(1 / (a * q)) := by
      field_simp
      ring
    rw [e3]
    field_simp
    ring

theorem eps_const (c : K) (n : ℕ) :
    (∀ r, 2 * n ≤ r → eps (fun _ => c) (2 * n) r = 0) ∧
    (∀ r, 2 * n + 1 ≤ r → eps (fun _ => c) (2 * n + 1) r = c) := by
  induction n with
  | zero => exact ⟨fun _ _ => rfl, fun _ _ => rfl⟩
  | succ n ih =>
    have he : ∀ r, 2 * (n + 1) ≤ r → eps (fun _ => c) (2 * (n + 1)) r = 0 := by
      intro r hr
      show eps (fun _ => c) (2 * n + 2) r = 0
      rw [eps, ih.1 _ (by omega), ih.2 _ (by omega), ih.2 _ (by omega)]
      simp
    refine ⟨he, ?_⟩
    intro r hr
    show eps (fun _ => c) ((2 * n + 1) + 2) r = c
    rw [eps, ih.2 _ (by omega)]
    have h1 := he r (by omega)
    have h2 := he (r - 1) (by omega)
    show c + (eps (fun _ => c) (2 * (n + 1)) r - eps (fun _ => c) (2 * (n + 1)) (r - 1))⁻¹ = c
    rw [h1, h2]; simp

theorem eps_congr (s s' : ℕ → K) (N : ℕ) (h : ∀ k < N, s k = s' k) (c r : ℕ) (hc : 1 ≤ c) (hr : c ≤ r)
    (hN : r ≤ N) : eps s c r = eps s' c r := by
  induction c using Nat.strong_induction_on generalizing r with
  | _ c ih =>
    rcases c with _ | _ | c
    · omega
    · show s (r - 1) = s' (r - 1)
      exact h _ (by omega)
    · rw [eps, eps, ih (c + 1) (by omega) r (by omega) (by omega) hN,
        ih (c + 1) (by omega) (r - 1) (by omega) (by omega) (by omega)]
      congr 1
      rcases c with _ | c
      · rfl
      · exact ih (c + 1) (by omega) (r - 1) (by omega) (by omega) (by omega)

/-- A constant sequence is reproduced at every rank. -/
theorem C68_wynn_constant (c : K) (rank n : ℕ) (h : 2 * rank + 1 ≤ n) :
    wynnEpsilon (List.replicate n c) rank = .ok |c| := by
  rw [wynnEpsilon_eq _ _ (by simpa using h)]
  rw [eps_congr _ (fun _ => c) (2 * rank + 1) _ _ _ (by omega) le_rfl le_rfl, (eps_const c rank).2 _ le_rfl]
  intro k hk
  show (List.replicate n c).getD k 0 = c
  rw [List.getD_eq_getElem _ _ (by simpa using (by omega : k < n))]
  simp

theorem eps_affine (s : ℕ → K) (a b : K) (n : ℕ) :
    (∀ r, 2 * n ≤ r → eps (fun k => a * s k + b) (2 * n) r = a⁻¹ * eps s (2 * n) r) ∧
    (∀ r, 2 * n + 1 ≤ r → a ≠ 0 → eps (fun k => a * s k + b) (2 * n + 1) r = a * eps s (2 * n + 1) r + b) := by
  induction n with
  | zero => exact ⟨fun r _ => by simp [eps], fun r _ _ => by simp [eps]⟩
  | succ n ih =>
    have he : ∀ r, 2 * (n + 1) ≤ r → eps (fun k => a * s k + b) (2 * (n + 1)) r
        = a⁻¹ * eps s (2 * (n + 1)) r := by
      intro r hr
      show eps (fun k => a * s k + b) (2 * n + 2) r = a⁻¹ * eps s (2 * n + 2) r
      rw [eps, eps, ih.1 _ (by omega)]
      by_cases ha : a = 0
      · subst ha
        have := eps_const b n
        have hf : (fun k => 0 * s k + b) = fun _ : ℕ => b := by funext k; ring
        rw [hf, this.2 _ (by omega), this.2 _ (by omega)]
        simp
      · rw [ih.2 _ (by omega) ha, ih.2 _ (by omega) ha]
        rw [show a * eps s (2 * n + 1) r + b - (a * eps s (2 * n + 1) (r - 1) + b)
          = a * (eps s (2 * n + 1) r - eps s (2 * n + 1) (r - 1)) by ring, mul_inv]
        ring
    refine ⟨he, ?_⟩
    intro r hr ha
    show eps (fun k => a * s k + b) ((2 * n + 1) + 2) r = a * eps s ((2 * n + 1) + 2) r + b
    rw [eps_step _ (2 * n + 1), eps_step s (2 * n + 1), ih.2 _ (by omega) ha]
    have h1 := he r (by omega)
    have h2 := he (r - 1) (by omega)
    rw [show 2 * (n + 1) = 2 * n + 1 + 1 by ring] at h1 h2
    rw [h1, h2, ← mul_sub, mul_inv, inv_inv]
    ring

/-- The algorithm does not depend on the unit of the data: scaling the sequence scales the answer, at
every rank and for every factor (also negative ones and zero). -/
theorem C68_wynn_homogeneous (lst : List K) (rank : ℕ) (a v : K) (h : wynnEpsilon lst rank = .ok v) :
    wynnEpsilon (lst.map (a * ·)) rank = .ok (|a| * v) := by
  have hlen : 2 * rank + 1 ≤ lst.length := by
    by_contra hc
    rw [(C68_wynn_reads lst rank).1 (by omega)] at h
    cases h
  rw [wynnEpsilon_eq _ _ hlen] at h
  injection h with h
  subst h
  rw [wynnEpsilon_eq _ _ (by simpa using hlen)]
  have hf : (fun k => (lst.map (a * ·)).getD k 0) = fun k => a * lst.getD k 0 + 0 := by
    funext k
    rw [add_zero]
    by_cases hk : k < lst.length
    · rw [List.getD_eq_getElem _ _ (by simpa using hk), List.getD_eq_getElem _ _ hk]; simp
    · rw [List.getD_eq_default _ _ (by simpa using hk), List.getD_eq_default _ _ (by simpa using hk)]; simp
  rw [hf]
  by_cases ha : a = 0
  · subst ha
    have : (fun k => 0 * lst.getD k 0 + 0) = fun _ : ℕ => (0 : K) := by funext k; ring
    rw [this, (eps_const 0 rank).2 _ le_rfl]; simp
  · rw [(eps_affine _ a 0 rank).2 _ le_rfl ha, add_zero, abs_mul]

/-- VIOLATION of "extrapolation improves": a sequence that has already converged after one step (a
geometric sequence of ratio zero) returns its *first* value instead of its limit. -/
theorem C68_violation_converged (x0 L : K) : wynnEpsilon [x0, L, L] 1 = .ok |x0| := by
  rw [wynnEpsilon_eq _ _ (by simp)]
  congr 2
  simp only [eps, List.getD_cons_succ, List.getD_cons_zero, Nat.mul_one, Nat.reduceAdd, Nat.reduceSub,
    zero_add, sub_self, inv_zero, zero_sub, inv_neg, inv_inv]
  ring

/-- The estimate's sign is lost. -/
example : wynnEpsilon [(-3 : ℚ), -2, -(3 / 2)] 1 = .ok 1 := by
  have := C68_wynn_geometric (-1 : ℚ) (-2) (1 / 2) (by norm_num) (by norm_num) []
  norm_num at this
  exact this

example : wynnEpsilon [(3 : ℚ), 2, 3 / 2] 1 = .ok 1 ∧ wynnEpsilon [(5 : ℚ), 1, 1] 1 = .ok 5 := by
  constructor
  · have := C68_wynn_geometric (1 : ℚ) 2 (1 / 2) (by norm_num) (by norm_num) []
    norm_num at this
    exact this
  · have := C68_violation_converged (5 : ℚ) 1
    norm_num at this
    exact this

end Wynn

/-! ### Spatial error -/

theorem norm2_cons (x : ℝ) (l : List ℝ) : norm2 (x :: l) = √(x ^ 2 + norm2 l ^ 2) := by
  unfold norm2
  rw [Real.sq_sqrt]
  · simp
  · exact List.sum_nonneg (by simp only [List.mem_map]; rintro _ ⟨v, _, rfl⟩; positivity)

theorem norm2_nonneg (l : List ℝ) : 0 ≤ norm2 l := Real.sqrt_nonneg _

theorem norm2_sq (l : List ℝ) : norm2 l ^ 2 = (l.map fun v => v ^ 2).sum := by
  unfold norm2
  rw [Real.sq_sqrt]
  exact List.sum_nonneg (by simp only [List.mem_map]; rintro _ ⟨v, _, rfl⟩; positivity)

theorem minkowski2 (x y u v : ℝ) : √((x + y) ^ 2 + (u + v) ^ 2) ≤ √(x ^ 2 + u ^ 2) + √(y ^ 2 + v ^ 2) := by
  have hp := Real.sq_sqrt (show 0 ≤ x ^ 2 + u ^ 2 by positivity)
  have hq := Real.sq_sqrt (show 0 ≤ y ^ 2 + v ^ 2 by positivity)
  have hpn := Real.sqrt_nonneg (x ^ 2 + u ^ 2)
  have hqn := Real.sqrt_nonneg (y ^ 2 + v ^ 2)
  set p := √(x ^ 2 + u ^ 2)
  set q := √(y ^ 2 + v ^ 2)
  rw [Real.sqrt_le_left (by positivity)]
  have hxy : x * y + u * v ≤ p * q := by
    refine le_trans (le_abs_self _) (abs_le_of_sq_le_sq ?_ (mul_nonneg hpn hqn))
    rw [mul_pow, hp, hq]
    nlinarith [sq_nonneg (x * v - u * y)]
  nlinarith

theorem norm2_triangle : ∀ a b c : List ℝ, a.length = b.length → b.length = c.length →
    norm2 (List.zipWith (· - ·) a c) ≤ norm2 (List.zipWith (· - ·) a b) + norm2 (List.zipWith (· - ·) b c)
  | [], [], [], _, _ => by simp [norm2]
  | x :: a, y :: b, z :: c, h1, h2 => by
    have ih := norm2_triangle a b c (by simpa using h1) (by simpa using h2)
    simp only [List.zipWith_cons_cons, norm2_cons]
    calc √((x - z) ^ 2 + norm2 (List.zipWith (· - ·) a c) ^ 2)
        ≤ √(((x - y) + (y - z)) ^ 2 +
            (norm2 (List.zipWith (· - ·) a b) + norm2 (List.zipWith (· - ·) b c)) ^ 2) := by
          apply Real.sqrt_le_sqrt
          have := norm2_nonneg (List.zipWith (· - ·) a c)
          rw [show x - y + (y - z) = x - z by ring]
          gcongr
      _ ≤ _ := minkowski2 _ _ _ _

theorem norm2_eq_zero : ∀ a b : List ℝ, a.length = b.length →
    (norm2 (List.zipWith (· - ·) a b) = 0 ↔ a = b)
  | [], [], _ => by simp [norm2]
  | x :: a, y :: b, h => by
    have ih := norm2_eq_zero a b (by simpa using h)
    rw [List.zipWith_cons_cons, norm2_cons, Real.sqrt_eq_zero (by positivity)]
    constructor
    · intro h0
      have h1 : (x - y) ^ 2 = 0 := by nlinarith [sq_nonneg (x - y), sq_nonneg (norm2 (List.zipWith (· - ·) a b))]
      have h2 : norm2 (List.zipWith (· - ·) a b) ^ 2 = 0 := by linarith
      have e1 : a = b := ih.mp (by simpa using h2)
      have e2 : x = y := sub_eq_zero.mp (by simpa using h1)
      rw [e1, e2]
    · intro h0
      injection h0 with h1 h2
      rw [h1, ih.mpr h2]; simp

/-- Number of spatial cells the error is normalised with. -/
def cellsOf (shape : List ℕ) (ndims : ℤ) : ℕ :=
  if ndims = 1 then shape.getD 0 0 else shape.getD 0 0 * shape.getD 1 0

/-- For equal shapes with at least `ndims` axes and at least one cell, `spatial_error` is the root of
the sum of squared differences per cell: `e ≥ 0` and `cells * e^2 = sum (approx - reference)^2`. -/
theorem C68_spatial_error (a b : Arr) (ndims : ℤ) (hs : a.shape = b.shape) (hd : ndims = 1 ∨ ndims = 2)
    (hr : ndims.toNat ≤ a.shape.length) (hc : 0 < cellsOf a.shape ndims) :
    ∃ e, spatialError a b ndims = .ok e ∧ 0 ≤ e ∧
      cellsOf a.shape ndims * e ^ 2 = ((List.zipWith (· - ·) a.data b.data).map fun v => v ^ 2).sum := by
  have key : ∀ m : ℕ, 0 < m → ∃ r : ℝ, rootInv m = .ok r ∧ 0 < r ∧ m * r ^ 2 = 1 := by
    intro m hm
    have hm' : (0 : ℝ) < m := by exact_mod_cast hm
    refine ⟨(m : ℝ) ^ (-0.5 : ℝ), by simp [rootInv, hm.ne'], Real.rpow_pos_of_pos hm' _, ?_⟩
    rw [← Real.rpow_natCast ((m : ℝ) ^ (-0.5 : ℝ)) 2, ← Real.rpow_mul hm'.le]
    norm_num
    rw [Real.rpow_neg_one]
    field_simp
  rcases hd with rfl | rfl
  · rcases hsh : a.shape with _ | ⟨s0, rest⟩
    · rw [hsh] at hr; simp at hr
    · rw [hsh] at hc
      obtain ⟨r, h1, h2, h3⟩ := key s0 (by simpa [cellsOf] using hc)
      refine ⟨r * norm2 (a.sub b), ?_, mul_nonneg h2.le (norm2_nonneg _), ?_⟩
      · simp [spatialError, ← hs, hsh, h1]
      · rw [mul_pow, norm2_sq]
        simp only [cellsOf, if_true, List.getD_cons_zero, Arr.sub]
        linear_combination ((List.zipWith (· - ·) a.data b.data).map fun v => v ^ 2).sum * h3
  · rcases hsh : a.shape with _ | ⟨s0, _ | ⟨s1, rest⟩⟩
    · rw [hsh] at hr; simp at hr
    · rw [hsh] at hr; simp at hr
    · rw [hsh] at hc
      obtain ⟨r, h1, h2, h3⟩ := key (s0 * s1) (by simpa [cellsOf] using hc)
      refine ⟨r * norm2 (a.sub b), ?_, mul_nonneg h2.le (norm2_nonneg _), ?_⟩
      · simp [spatialError, ← hs, hsh, h1]
      · rw [mul_pow, norm2_sq]
        simp only [cellsOf, List.getD_cons_zero, List.getD_cons_succ, Arr.sub, if_false,
          show (2 : ℤ) ≠ 1 by decide]
        linear_combination ((List.zipWith (· - ·) a.data b.data).map fun v => v ^ 2).sum * h3

theorem spatialError_ok (a b : Arr) (ndims : ℤ) (v : ℝ) (h : spatialError a b ndims = .ok v) :
    a.shape = b.shape ∧ ∃ r : ℝ, 0 < r ∧ v = r * norm2 (a.sub b) ∧
      ∀ a' b' : Arr, a'.shape = a.shape → b'.shape = a.shape →
        spatialError a' b' ndims = .ok (r * norm2 (a'.sub b')) := by
  have hroot : ∀ m r, rootInv m = .ok r → 0 < r := by
    intro m r hm
    unfold rootInv at hm
    split at hm
    · cases hm
    · cases hm
      exact Real.rpow_pos_of_pos (by exact_mod_cast Nat.pos_of_ne_zero (by assumption)) _
  unfold spatialError at h
  split at h
  · cases h
  · rename_i hs
    rw [not_not] at hs
    refine ⟨hs, ?_⟩
    split at h
    · rename_i hn
      split at h
      · cases h
      · rename_i s0 rest hsh
        split at h
        · cases h
        · rename_i r hr
          cases h
          refine ⟨r, hroot _ _ hr, rfl, ?_⟩
          intro a' b' ha hb
          simp [spatialError, ha, hb, hn, hsh, hr]
    · rename_i hn1
      split at h
      · rename_i hn
        split at h
        · rename_i s0 s1 rest hsh
          split at h
          · cases h
          · rename_i r hr
            cases h
            refine ⟨r, hroot _ _ hr, rfl, ?_⟩
            intro a' b' ha hb
            simp [spatialError, ha, hb, hn, hsh, hr]
        · cases h
      · cases h

/-- `spatial_error` is a metric on arrays of one shape: zero exactly for equal arrays, symmetric, and
satisfying the triangle inequality. -/
theorem C68_spatial_error_metric (a b c : Arr) (ndims : ℤ) (hab : a.data.length = b.data.length)
    (hbc : b.data.length = c.data.length) (hs : b.shape = c.shape)
    (v : ℝ) (h : spatialError a b ndims = .ok v) :
    (v = 0 ↔ a.data = b.data) ∧ spatialError b a ndims = .ok v ∧
    ∃ w u, spatialError b c ndims = .ok w ∧ spatialError a c ndims = .ok u ∧ u ≤ v + w := by
  obtain ⟨hsh, r, hr, rfl, hall⟩ := spatialError_ok a b ndims v h
  refine ⟨?_, ?_, r * norm2 (b.sub c), r * norm2 (a.sub c), ?_, ?_, ?_⟩
  · rw [← norm2_eq_zero _ _ hab, mul_eq_zero]
    constructor
    · rintro (h | h)
      · exact absurd h hr.ne'
      · exact h
    · intro h; exact Or.inr h
  · rw [hall b a hsh.symm rfl]
    congr 2
    unfold norm2 Arr.sub
    congr 1
    have : ∀ p q : List ℝ, (List.zipWith (· - ·) p q).map (fun v => v ^ 2)
        = (List.zipWith (· - ·) q p).map (fun v => v ^ 2) := by
      intro p
      induction p with
      | nil => intro q; cases q <;> rfl
      | cons x p ih =>
        intro q
        cases q with
        | nil => rfl
        | cons y q =>
          rw [List.zipWith_cons_cons, List.zipWith_cons_cons, List.map_cons, List.map_cons, ih q]
          congr 1; ring
    rw [this]
  · exact hall b c hsh.symm (hs ▸ hsh.symm)
  · exact hall a c rfl (hs ▸ hsh.symm)
  · have := norm2_triangle _ _ _ hab hbc
    unfold Arr.sub
    nlinarith

/-- Rejected inputs: different shapes fail the assertion; `ndims` other than 1 and 2 is not rejected with a
message but leaves the normalisation unbound. -/
theorem C68_spatial_error_rejects (a b : Arr) (ndims : ℤ) :
    (a.shape ≠ b.shape → spatialError a b ndims = .error .assertion) ∧
    (a.shape = b.shape → ndims ≠ 1 → ndims ≠ 2 → spatialError a b ndims = .error .unboundLocal) := by
  constructor
  · intro h; simp [spatialError, h]
  · intro h h1 h2; simp [spatialError, h, h1, h2]

/-- Two cells, errors 3 and 4: the error is `5 / sqrt 2`. -/
example : ∃ e, spatialError ⟨[2, 1], [3, 4]⟩ ⟨[2, 1], [0, 0]⟩ 1 = .ok e ∧ 2 * e ^ 2 = 25 := by
  obtain ⟨e, h1, _, h2⟩ := C68_spatial_error ⟨[2, 1], [3, 4]⟩ ⟨[2, 1], [0, 0]⟩ 1 rfl (Or.inl rfl)
    (by simp) (by simp [cellsOf])
  refine ⟨e, h1, ?_⟩
  simp [cellsOf] at h2
  rw [h2]; norm_num

/-! ## C93: Reed's source -/

section Reeds

variable {K : Type} [Field K] [LinearOrder K] [IsStrictOrderedRing K]

/-- Reed's source as a function of position: 50 in the centre, 1 in two outer layers, 0 elsewhere. -/
def reedAt (x : K) : K :=
  if 6 < x ∧ x < 10 then 50 else if (2 < x ∧ x < 4) ∨ (12 < x ∧ x < 14) then 1 else 0

theorem loc_ok (n : ℕ) (edges : ℕ → K) (hm : ∀ i j, i < j → j < n → edges i < edges j) (i : ℕ) (hi : i < n) :
    loc n edges (edges i) = .ok i := by
  unfold loc
  have : (List.range n).filter (fun j => decide (edges j = edges i)) = [i] := by
    have h1 : (List.range n).filter (fun j => decide (edges j = edges i))
        = (List.range n).filter (fun j => decide (j = i)) := by
      apply List.filter_congr
      intro j hj
      have hj' := List.mem_range.mp hj
      congr 1
      apply propext
      constructor
      · intro he
        rcases Nat.lt_trichotomy j i with h | h | h
        · exact absurd he (hm j i h hi).ne
        · exact h
        · exact absurd he (hm i j h hj').ne'
      · rintro rfl; rfl
    rw [h1]
    have h2 := List.filter_eq (l := List.range n) i
    have h3 : List.count i (List.range n) = 1 :=
      List.count_eq_one_of_mem List.nodup_range (List.mem_range.mpr hi)
    rw [h3] at h2
    rw [← List.replicate_one, ← h2]
  rw [this]

theorem loc_missing (n : ℕ) (edges : ℕ → K) (x : K) (h : ∀ i < n, edges i ≠ x) :
    loc n edges x = .error .typeError := by
  unfold loc
  have : (List.range n).filter (fun j => decide (edges j = x)) = [] := by
    rw [List.filter_eq_nil_iff]
    intro j hj
    simpa using h j (List.mem_range.mp hj)
  rw [this]

/-- The mesh contains the edge `x` at an index that separates the cells left of `x` from those right of it. -/
theorem edge_index (n : ℕ) (edges : ℕ → K) (hm : ∀ i j, i < j → j < n → edges i < edges j) (x : K)
    (hx : ∃ i < n, edges i = x) :
    ∃ i, loc n edges x = .ok i ∧ ∀ c, c + 1 < n →
      (i ≤ c ↔ x < (edges c + edges (c + 1)) / 2) ∧ (c < i ↔ (edges c + edges (c + 1)) / 2 < x) := by
  obtain ⟨i, hi, rfl⟩ := hx
  refine ⟨i, loc_ok n edges hm i hi, ?_⟩
  intro c hc
  have hcc := hm c (c + 1) (by omega) hc
  have hle : ∀ j k, j ≤ k → k < n → edges j ≤ edges k := by
    intro j k hjk hk
    rcases Nat.eq_or_lt_of_le hjk with rfl | h
    · exact le_rfl
    · exact (hm j k h hk).le
  have hA : i ≤ c → edges i < (edges c + edges (c + 1)) / 2 := by
    intro h
    have := hle i c h (by omega)
    linarith
  have hB : c < i → (edges c + edges (c + 1)) / 2 < edges i := by
    intro h
    have := hle (c + 1) i h hi
    linarith
  constructor
  · constructor
    · exact hA
    · intro h
      by_contra hn
      have := hB (by omega)
      linarith
  · constructor
    · exact hB
    · intro h
      by_contra hn
      have := hA (by omega)
      linarith

theorem reed_ifs (m : K) (h8 : 8 < m ∨ m < 8) :
    (if 14 < m ∧ m < 16 then (0 : K) else if 12 < m ∧ m < 14 then 1 else if 10 < m ∧ m < 12 then 0 else
      if 8 < m ∧ m < 10 then 50 else if 6 < m ∧ m < 8 then 50 else if 4 < m ∧ m < 6 then 0 else
      if 2 < m ∧ m < 4 then 1 else if 0 < m ∧ m < 2 then 0 else 0) = reedAt m := by
  unfold reedAt
  split_ifs <;> first | rfl | (exfalso; grind)

/-- On every mesh that contains the material interfaces, with vacuum faces, each cell carries Reed's source at
its centre - whatever the cell sizes. -/
theorem C93_reeds_full (n : ℕ) (edges : ℕ → K) (hm : ∀ i j, i < j → j < n → edges i < edges j)
    (he : ∀ k : ℕ, k ≤ 8 → ∃ i < n, edges i = 2 * k) (bc : List ℤ) (hbc : bc.sum ≤ 0) :
    ∃ ext, reeds n edges bc = .ok ext ∧
      ∀ c, c + 1 < n → ext c = reedAt ((edges c + edges (c + 1)) / 2) := by
  have ix : ∀ k : ℕ, k ≤ 8 → _ := fun k hk => edge_index n edges hm (2 * k) (he k hk)
  obtain ⟨i0, l0, h0⟩ := ix 0 (by omega)
  obtain ⟨i1, l1, h1⟩ := ix 1 (by omega)
  obtain ⟨i2, l2, h2⟩ := ix 2 (by omega)
  obtain ⟨i3, l3, h3⟩ := ix 3 (by omega)
  obtain ⟨i4, l4, h4⟩ := ix 4 (by omega)
  obtain ⟨i5, l5, h5⟩ := ix 5 (by omega)
  obtain ⟨i6, l6, h6⟩ := ix 6 (by omega)
  obtain ⟨i7, l7, h7⟩ := ix 7 (by omega)
  obtain ⟨i8, l8, h8⟩ := ix 8 (by omega)
  simp only [Nat.cast_zero, mul_zero] at l0 h0
  norm_num at l1 l2 l3 l4 l5 l6 l7 l8
  norm_num at h1 h2 h3 h4 h5 h6 h7 h8
  refine ⟨[((0 : K), i0, i1), (1, i1, i2), (0, i2, i3), (50, i3, i4), (50, i4, i5), (0, i5, i6), (1, i6, i7),
    (0, i7, i8)].foldl reedWrite fun _ => 0, ?_, ?_⟩
  · unfold reeds reedRows
    rw [if_neg (by omega)]
    simp only [reedTable, reedBounds, l0, l1, l2, l3, l4, l5, l6, l7, l8]
  · intro c hc
    simp only [List.foldl_cons, List.foldl_nil, reedWrite, (h0 c hc).1, (h1 c hc).1, (h2 c hc).1, (h3 c hc).1,
      (h4 c hc).1, (h5 c hc).1, (h6 c hc).1, (h7 c hc).1, (h1 c hc).2, (h2 c hc).2, (h3 c hc).2, (h4 c hc).2,
      (h5 c hc).2, (h6 c hc).2, (h7 c hc).2, (h8 c hc).2]
    have e4 := (h4 c hc).1
    have e4' := (h4 c hc).2
    generalize (edges c + edges (c + 1)) / 2 = m at *
    have h8m : 8 < m ∨ m < 8 := by
      rcases Nat.lt_or_ge c i4 with h | h
      · exact Or.inr (e4'.mp h)
      · exact Or.inl (e4.mp h)
    exact reed_ifs m h8m

/-- Half problems on `[0, 8]`: with only the right face reflecting the mesh is the left half of the full
problem, with the left face reflecting it is the right half. -/
theorem C93_reeds_half (n : ℕ) (edges : ℕ → K) (hm : ∀ i j, i < j → j < n → edges i < edges j)
    (he : ∀ k : ℕ, k ≤ 4 → ∃ i < n, edges i = 2 * k) (bc : List ℤ) (hbc : 0 < bc.sum) :
    ∃ ext, reeds n edges bc = .ok ext ∧
      ∀ c, c + 1 < n → 0 ≤ edges c → edges (c + 1) ≤ 8 →
        ext c = reedAt ((edges c + edges (c + 1)) / 2 + if bc = [0, 1] then 0 else 8) := by
  have ix : ∀ k : ℕ, k ≤ 4 → _ := fun k hk => edge_index n edges hm (2 * k) (he k hk)
  obtain ⟨i0, l0, h0⟩ := ix 0 (by omega)
  obtain ⟨i1, l1, h1⟩ := ix 1 (by omega)
  obtain ⟨i2, l2, h2⟩ := ix 2 (by omega)
  obtain ⟨i3, l3, h3⟩ := ix 3 (by omega)
  obtain ⟨i4, l4, h4⟩ := ix 4 (by omega)
  simp only [Nat.cast_zero, mul_zero] at l0 h0
  norm_num at l1 l2 l3 l4
  norm_num at h1 h2 h3 h4
  by_cases hb : bc = [0, 1]
  · refine ⟨[((0 : K), i0, i1), (1, i1, i2), (0, i2, i3), (50, i3, i4)].foldl reedWrite fun _ => 0, ?_, ?_⟩
    · unfold reeds reedRows
      rw [if_pos hbc]
      simp only [if_pos hb, reedTable, List.take_succ_cons, List.take_zero, List.map_cons, List.map_nil, sub_zero]
      simp only [reedBounds, l0, l1, l2, l3, l4]
    · intro c hc hlo hhi
      simp only [List.foldl_cons, List.foldl_nil, reedWrite, (h0 c hc).1, (h1 c hc).1, (h2 c hc).1, (h3 c hc).1,
        (h1 c hc).2, (h2 c hc).2, (h3 c hc).2, (h4 c hc).2, if_pos hb, add_zero]
      have hcc := hm c (c + 1) (by omega) hc
      have hm0 : 0 < (edges c + edges (c + 1)) / 2 := by linarith
      have hm8 : (edges c + edges (c + 1)) / 2 < 8 := by linarith
      generalize (edges c + edges (c + 1)) / 2 = m at *
      unfold reedAt
      split_ifs <;> first | rfl | (exfalso; grind)
  · refine ⟨[((50 : K), i0, i1), (0, i1, i2), (1, i2, i3), (0, i3, i4)].foldl reedWrite fun _ => 0, ?_, ?_⟩
    · unfold reeds reedRows
      rw [if_pos hbc]
      simp only [if_neg hb, reedTable, List.drop_succ_cons, List.drop_zero, List.map_cons, List.map_nil]
      norm_num
      simp only [reedBounds, l0, l1, l2, l3, l4]
      rfl
    · intro c hc hlo hhi
      simp only [List.foldl_cons, List.foldl_nil, reedWrite, (h0 c hc).1, (h1 c hc).1, (h2 c hc).1, (h3 c hc).1,
        (h1 c hc).2, (h2 c hc).2, (h3 c hc).2, (h4 c hc).2, if_neg hb]
      have hcc := hm c (c + 1) (by omega) hc
      have hm0 : 0 < (edges c + edges (c + 1)) / 2 := by linarith
      have hm8 : (edges c + edges (c + 1)) / 2 < 8 := by linarith
      generalize (edges c + edges (c + 1)) / 2 = m at *
      unfold reedAt
      split_ifs <;> first | rfl | (exfalso; grind)

theorem loc_error (n : ℕ) (edges : ℕ → K) (x : K) (e : PyErr) (h : loc n edges x = .error e) : e = .typeError := by
  unfold loc at h
  split at h <;> cases h
  rfl

theorem reedBounds_bad (n : ℕ) (edges : ℕ → K) (x : K) (hl : loc n edges x = .error .typeError) :
    ∀ rows : List (K × K × K), (∃ r ∈ rows, r.2.1 = x ∨ r.2.2 = x) → reedBounds n edges rows = .error .typeError
  | [], h => by obtain ⟨_, h, _⟩ := h; cases h
  | r :: rs, h => by
    rw [reedBounds]
    cases h1 : loc n edges r.2.1 with
    | error e => rw [loc_error _ _ _ _ h1]
    | ok lo =>
      cases h2 : loc n edges r.2.2 with
      | error e => simp only [loc_error _ _ _ _ h2]
      | ok hi =>
        have : reedBounds n edges rs = .error .typeError := by
          apply reedBounds_bad n edges x hl
          obtain ⟨q, hq, hqx⟩ := h
          rcases List.mem_cons.mp hq with rfl | hq
          · rcases hqx with h | h
            · rw [h, hl] at h1; cases h1
            · rw [h, hl] at h2; cases h2
          · exact ⟨q, hq, hqx⟩
        simp only [this]

theorem reeds_bad (n : ℕ) (edges : ℕ → K) (bc : List ℤ) (k : ℕ)
    (hk : k ≤ if 0 < bc.sum then 4 else 8) (h : loc n edges (2 * k) = .error .typeError) :
    reeds n edges bc = .error .typeError := by
  unfold reeds
  rw [reedBounds_bad n edges (2 * k) h]
  unfold reedRows
  by_cases hb : bc.sum > 0
  · rw [if_pos hb] at hk ⊢
    by_cases h01 : bc = [0, 1]
    · simp only [if_pos h01, reedTable]
      interval_cases k <;> norm_num
    · simp only [if_neg h01, reedTable]
      interval_cases k <;> norm_num
  · rw [if_neg hb] at hk ⊢
    simp only [reedTable]
    interval_cases k <;> norm_num

/-- A mesh that misses any interface of the selected (full or half) problem is rejected, never silently
given a shifted source. -/
theorem C93_reeds_rejects (n : ℕ) (edges : ℕ → K) (bc : List ℤ) (k : ℕ)
    (hk : k ≤ if 0 < bc.sum then 4 else 8) (h : ∀ i < n, edges i ≠ 2 * k) :
    reeds n edges bc = .error .typeError := reeds_bad n edges bc k hk (loc_missing n edges _ h)

/-- ... and so is a mesh that lists an interface twice. -/
theorem C93_reeds_rejects_repeated (n : ℕ) (edges : ℕ → K) (bc : List ℤ) (k : ℕ)
    (hk : k ≤ if 0 < bc.sum then 4 else 8) (i j : ℕ) (hij : i < j) (hj : j < n) (hi : edges i = 2 * k)
    (hj' : edges j = 2 * k) : reeds n edges bc = .error .typeError := by
  refine reeds_bad n edges bc k hk ?_
  unfold loc
  split
  · next m hm =>
    have h1 : i ∈ (List.range n).filter (fun i => decide (edges i = 2 * (k : K))) := by
      simp [hi]; omega
    have h2 : j ∈ (List.range n).filter (fun i => decide (edges i = 2 * (k : K))) := by
      simp [hj', hj]
    rw [hm, List.mem_singleton] at h1 h2
    omega
  · rfl

example : reeds 18 (fun i => if i ≤ 2 then (i : ℚ) else i - 1) [0, 0] = .error .typeError :=
  C93_reeds_rejects_repeated 18 _ [0, 0] 1 (by decide) 2 3 (by norm_num) (by norm_num) (by norm_num) (by norm_num)

example : reeds 17 (fun i => (i : ℚ) + 1 / 2) [0, 0] = .error .typeError :=
  C93_reeds_rejects 17 _ [0, 0] 0 (by decide) (fun i _ => by push_cast; rw [mul_zero]; positivity)

/-- Unit cells on `[0, 16]` satisfy the hypotheses. -/
example : ∃ ext, reeds 17 (fun i => (i : ℚ)) [0, 0] = .ok ext ∧ ext 2 = 1 ∧ ext 6 = 50 ∧ ext 15 = 0 := by
  obtain ⟨ext, h1, h2⟩ := C93_reeds_full 17 (fun i => (i : ℚ))
    (fun i j hij _ => by exact_mod_cast hij) (fun k hk => ⟨2 * k, by omega, by push_cast; ring⟩) [0, 0] (by decide)
  refine ⟨ext, h1, ?_, ?_, ?_⟩ <;> rw [h2 _ (by omega)] <;> norm_num [reedAt]

example : ∃ ext, reeds 9 (fun i => (i : ℚ)) [1, 0] = .ok ext ∧ ext 0 = 50 ∧ ext 5 = 1 := by
  obtain ⟨ext, h1, h2⟩ := C93_reeds_half 9 (fun i => (i : ℚ))
    (fun i j hij _ => by exact_mod_cast hij) (fun k hk => ⟨2 * k, by omega, by push_cast; ring⟩) [1, 0] (by decide)
  refine ⟨ext, h1, ?_, ?_⟩ <;> rw [h2 _ (by omega) (by positivity) (by norm_num)] <;> norm_num [reedAt]

end Reeds

end Discrete1.Props
