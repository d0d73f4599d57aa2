import Verif.Props.Converge
import Verif.Props.Existence
import Mathlib.MeasureTheory.Integral.IntervalIntegral.TrapezoidalRule

/-!
# C127, C128: accuracy of the spatial discretisation

C127: fluxes linear in space are reproduced exactly; C128: second-order convergence of `source_iteration` to
the solution of the transport equation that is not discretised in space.
-/

set_option linter.unusedSectionVars false
set_option linter.unusedSimpArgs false

namespace Discrete1.Props

open Finset Discrete1.Spec Discrete1.Slab Discrete1.Tools Discrete1.MultiGroup Discrete1.Drivers

section

variable {K : Type} [Field K] [LinearOrder K] [IsStrictOrderedRing K]

/-- Edge values `f` and cell averages `A` of angular fluxes (group, direction, cell) that satisfy the balance
of every cell exactly, `mu (f_{i+1} - f_i)/dx + sigma A_i = sum xs phi_i + ext` with `phi` the quadrature sum
of the averages, and the boundary conditions. -/
structure CellBalanced (p : Problem K) (sigma : ℕ → ℕ → K) (xs : ℕ → ℕ → ℕ → K) (ext bnd : Arr3 K)
    (f A : ℕ → ℕ → ℕ → K) : Prop where
  balance : ∀ g < p.groups, ∀ n < p.angles, ∀ i < p.cells,
    p.angleX n * (f g n (i + 1) - f g n i) / p.dx i + sigma (p.mm i) g * A g n i
      = ∑ g' ∈ range p.groups, xs (p.mm i) g g' * (∑ m ∈ range p.angles, p.angleW m * A g' m i)
        + sourceAt ext i n g
  inflow : ∀ g < p.groups, SweptInflow p.cells p.angles p.angleX p.bcL p.bcR (fun n => sourceAt bnd 0 n g)
    (fun n => sourceAt bnd 1 n g) (f g)

/-- C128, discrete form: the diamond-difference solution differs from any field with exact cell balances by
no more than the deviation `kappa` of its cell averages from the means of its edge values, amplified by
`(1 + c) / (1 - c)`. -/
theorem C128_error_bound (p : Problem K) (xsTotal : ℕ → ℕ → K) (xs : ℕ → ℕ → ℕ → K)
    (external boundary : Arr3 K) (c : K) (hc : 0 ≤ c) (hc1 : c < 1) (hcon : Contractive p xsTotal xs c)
    (phi : ℕ → ℕ → K) (e f A : ℕ → ℕ → ℕ → K)
    (h : SolvesMultigroup p xsTotal xs external boundary phi e)
    (hf : CellBalanced p xsTotal xs external boundary f A) (kappa : K) (hk : 0 ≤ kappa)
    (hkap : ∀ g < p.groups, ∀ n < p.angles, ∀ i < p.cells,
      |A g n i - (f g n i + f g n (i + 1)) / 2| ≤ kappa) :
    (∀ g < p.groups, ∀ n < p.angles, ∀ i ≤ p.cells, |e g n i - f g n i| ≤ (1 + c) / (1 - c) * kappa) ∧
    ∀ i < p.cells, ∀ g < p.groups,
      |phi i g - ∑ n ∈ range p.angles, p.angleW n * A g n i| ≤ 2 / (1 - c) * kappa := by
  have hpos : 0 < 1 - c := by linarith
  set B := (1 + c) / (1 - c) * kappa with hB
  have hB0 : 0 ≤ B := mul_nonneg (div_nonneg (by linarith) hpos.le) hk
  have ht : Tame p xsTotal xs := ⟨hcon.ok, hcon.fine, hcon.weights, hcon.norm, hcon.nonneg⟩
  have hscal : ∀ M, (∀ g < p.groups, ∀ n < p.angles, ∀ i ≤ p.cells, |e g n i - f g n i| ≤ M) →
      ∀ i < p.cells, ∀ g < p.groups, |phi i g - ∑ n ∈ range p.angles, p.angleW n * A g n i| ≤ M + kappa := by
    intro M hM i hi g hg
    rw [h.scalar g hg i hi]
    unfold scalarCenter
    rw [← sum_sub_distrib]
    refine (abs_sum_le_sum_abs _ _).trans ?_
    calc ∑ n ∈ range p.angles, |p.angleW n * ((e g n i + e g n (i + 1)) / 2) - p.angleW n * A g n i|
        ≤ ∑ n ∈ range p.angles, p.angleW n * (M + kappa) := sum_le_sum fun n hn => by
          have hn := mem_range.mp hn
          rw [← mul_sub, abs_mul, abs_of_nonneg (ht.weights n hn)]
          refine mul_le_mul_of_nonneg_left ?_ (ht.weights n hn)
          have a := abs_le.mp (hM g hg n hn i hi.le)
          have b := abs_le.mp (hM g hg n hn (i + 1) hi)
          have d := abs_le.mp (hkap g hg n hn i hi)
          rw [abs_le]
          constructor <;> linarith [a.1, a.2, b.1, b.2, d.1, d.2]
      _ = M + kappa := by rw [← sum_mul, ht.norm, one_mul]
  have key := max_error (p := p) (sigma := xsTotal) (xs := xs) ht hc hc1 hB0 hcon.rows
    (d := fun g n i => e g n i - f g n i)
    (q := fun g n i => ∑ g' ∈ range p.groups, xs (p.mm i) g g'
        * (phi i g' - ∑ m ∈ range p.angles, p.angleW m * A g' m i)
      + xsTotal (p.mm i) g * (A g n i - (f g n i + f g n (i + 1)) / 2))
    (r := fun i g => (∑ g' ∈ range p.groups, xs (p.mm i) g g') * kappa + xsTotal (p.mm i) g * kappa)
    (fun g hg n hn i hi => ?_) (fun g hg n hn => ?_) (fun M hM g hg n hn i hi => ?_) (fun i hi g hg => ?_)
  · refine ⟨key, fun i hi g hg => (hscal B key i hi g hg).trans (le_of_eq ?_)⟩
    rw [hB]
    field_simp
    ring
  · have h1 := h.balance g hg n hn i hi
    have h2 := hf.balance g hg n hn i hi
    have hs : ∑ g' ∈ range p.groups, xs (p.mm i) g g'
        * (phi i g' - ∑ m ∈ range p.angles, p.angleW m * A g' m i)
        = ∑ g' ∈ range p.groups, xs (p.mm i) g g' * phi i g'
          - ∑ g' ∈ range p.groups, xs (p.mm i) g g' * ∑ m ∈ range p.angles, p.angleW m * A g' m i := by
      rw [← sum_sub_distrib]; exact sum_congr rfl fun _ _ => by ring
    have e1 : sourceAt external i n g
        = external.val i (bidx external.angles n) (bidx external.groups g) := rfl
    beta_reduce at h1 ⊢
    rw [hs]
    rw [e1] at h2
    linear_combination h1 - h2
  · have a := h.inflow g hg n hn
    have b := hf.inflow g hg n hn
    have e1 : inflow p.cells (p.angleX n) (fun i => e g n i - f g n i)
        = inflow p.cells (p.angleX n) (e g n) - inflow p.cells (p.angleX n) (f g n) := by
      unfold inflow; split <;> rfl
    have e2 : outflow p.cells (p.angleX (p.angles - 1 - n))
          (fun i => e g (p.angles - 1 - n) i - f g (p.angles - 1 - n) i)
        = outflow p.cells (p.angleX (p.angles - 1 - n)) (e g (p.angles - 1 - n))
          - outflow p.cells (p.angleX (p.angles - 1 - n)) (f g (p.angles - 1 - n)) := by
      unfold outflow; split <;> rfl
    have e3 : ∀ s, sourceAt boundary s n g
        = boundary.val s (bidx boundary.angles n) (bidx boundary.groups g) := fun _ => rfl
    beta_reduce at b
    rw [e3, e3] at b
    rw [e1, e2, a, b]
    split <;> split <;> ring
  · have h1 : |∑ g' ∈ range p.groups, xs (p.mm i) g g'
        * (phi i g' - ∑ m ∈ range p.angles, p.angleW m * A g' m i)|
        ≤ (∑ g' ∈ range p.groups, xs (p.mm i) g g') * (M + kappa) := by
      refine (abs_sum_le_sum_abs _ _).trans ?_
      rw [sum_mul]
      refine sum_le_sum fun g' hg' => ?_
      have hg' := mem_range.mp hg'
      rw [abs_mul, abs_of_nonneg (ht.nonneg i hi g hg g' hg')]
      exact mul_le_mul_of_nonneg_left (hscal M hM i hi g' hg') (ht.nonneg i hi g hg g' hg')
    have h2 : |xsTotal (p.mm i) g * (A g n i - (f g n i + f g n (i + 1)) / 2)|
        ≤ xsTotal (p.mm i) g * kappa := by
      have hs := ((ht.ok g hg).phys i hi).2
      rw [abs_mul, abs_of_nonneg hs]
      exact mul_le_mul_of_nonneg_left (hkap g hg n hn i hi) hs
    refine (abs_add_le _ _).trans ?_
    rw [mul_add] at h1
    linarith
  · have hs := ((ht.ok g hg).phys i hi).2
    have hrow := hcon.rows i hi g hg
    have h1 : (∑ g' ∈ range p.groups, xs (p.mm i) g g') * (B + kappa)
        ≤ c * xsTotal (p.mm i) g * (B + kappa) := mul_le_mul_of_nonneg_right hrow (by linarith)
    have h2 : (1 - c) * B = (1 + c) * kappa := by rw [hB]; field_simp
    have h3 : xsTotal (p.mm i) g * ((1 - c) * B) = xsTotal (p.mm i) g * ((1 + c) * kappa) := by rw [h2]
    nlinarith

/-- C128, driver form: what `source_iteration` returns from any guess. -/
theorem C128_source_iteration (p : Problem K) (xsTotal : ℕ → ℕ → K) (xs : ℕ → ℕ → ℕ → K)
    (external boundary : Arr3 K) (c : K) (hc : 0 ≤ c) (hc1 : c < 1) (hcon : Contractive p xsTotal xs c)
    (f A : ℕ → ℕ → ℕ → K) (hf : CellBalanced p xsTotal xs external boundary f A) (kappa : K) (hk : 0 ≤ kappa)
    (hkap : ∀ g < p.groups, ∀ n < p.angles, ∀ i < p.cells,
      |A g n i - (f g n i + f g n (i + 1)) / 2| ≤ kappa)
    (guess : ℕ → ℕ → K) (M : K) (hM : 0 ≤ M)
    (hguess : ∀ i < p.cells, ∀ g < p.groups,
      |guess i g - ∑ n ∈ range p.angles, p.angleW n * A g n i| ≤ M) :
    ∃ flux sweeps, 1 ≤ sweeps ∧ sweeps ≤ 100 ∧
      sourceIteration p xsTotal (.iso xs) external boundary guess = .ok flux ∧
      (sweeps < 100 → ∃ prev, p.convOut flux prev = true) ∧
      ∀ i < p.cells, ∀ g < p.groups, |flux i g - ∑ n ∈ range p.angles, p.angleW n * A g n i|
        ≤ c ^ sweeps * (M + 2 / (1 - c) * kappa) + 2 / (1 - c) * kappa := by
  obtain ⟨phi, e, h, _, hrun⟩ := C74_source_iteration_finds_solution p xsTotal xs external boundary c hc hc1 hcon
  obtain ⟨_, hb⟩ := C128_error_bound p xsTotal xs external boundary c hc hc1 hcon phi e f A h hf kappa hk hkap
  have hM' : 0 ≤ M + 2 / (1 - c) * kappa :=
    add_nonneg hM (mul_nonneg (div_nonneg (by norm_num) (by linarith)) hk)
  obtain ⟨flux, s, h1, h2, h3, h4, h5⟩ := hrun guess (M + 2 / (1 - c) * kappa) hM' (fun i hi g hg => by
    have a := abs_le.mp (hguess i hi g hg)
    have b := abs_le.mp (hb i hi g hg)
    rw [abs_le]
    constructor <;> linarith [a.1, a.2, b.1, b.2])
  refine ⟨flux, s, h1, h2, h3, h5, fun i hi g hg => ?_⟩
  have a := abs_le.mp (h4 i hi g hg)
  have b := abs_le.mp (hb i hi g hg)
  rw [abs_le]
  constructor <;> linarith [a.1, a.2, b.1, b.2]

/-- C128 for problems without self- and up-scatter: no iteration error, whatever the guess. -/
theorem C128_downscatter (p : Problem K) (xsTotal : ℕ → ℕ → K) (xs : ℕ → ℕ → ℕ → K)
    (external boundary : Arr3 K) (c : K) (hc : 0 ≤ c) (hc1 : c < 1) (hcon : Contractive p xsTotal xs c)
    (hdown : ∀ m g g', g ≤ g' → xs m g g' = 0)
    (f A : ℕ → ℕ → ℕ → K) (hf : CellBalanced p xsTotal xs external boundary f A) (kappa : K) (hk : 0 ≤ kappa)
    (hkap : ∀ g < p.groups, ∀ n < p.angles, ∀ i < p.cells,
      |A g n i - (f g n i + f g n (i + 1)) / 2| ≤ kappa) (guess : ℕ → ℕ → K) :
    ∃ flux, sourceIteration p xsTotal (.iso xs) external boundary guess = .ok flux ∧
      ∀ i < p.cells, ∀ g < p.groups,
        |flux i g - ∑ n ∈ range p.angles, p.angleW n * A g n i| ≤ 2 / (1 - c) * kappa := by
  obtain ⟨flux, e, h1, h2⟩ := C22_downscatter_exact p xsTotal xs external boundary guess hcon.ok hdown
  exact ⟨flux, h1, (C128_error_bound p xsTotal xs external boundary c hc hc1 hcon flux e f A h2 hf kappa hk
    hkap).2⟩

/-! ## C127 -/

/-- C127: angular fluxes that are linear in space (`a g n + b g n * x`, any direction- and group-dependent
coefficients) and satisfy the transport equation on average over every cell are returned exactly by
`source_iteration` on down-scatter problems: on every mesh, however coarse or irregular, from every guess. -/
theorem C127_downscatter (p : Problem K) (xsTotal : ℕ → ℕ → K) (xs : ℕ → ℕ → ℕ → K)
    (external boundary : Arr3 K) (hok : ∀ g < p.groups, SlabOk p xsTotal g)
    (hdown : ∀ m g g', g ≤ g' → xs m g g' = 0) (x : ℕ → K) (hx : ∀ i < p.cells, x (i + 1) = x i + p.dx i)
    (a b : ℕ → ℕ → K)
    (hbal : ∀ g < p.groups, ∀ n < p.angles, ∀ i < p.cells,
      p.angleX n * b g n + xsTotal (p.mm i) g * (a g n + b g n * (x i + p.dx i / 2))
        = ∑ g' ∈ range p.groups, xs (p.mm i) g g'
            * (∑ m ∈ range p.angles, p.angleW m * (a g' m + b g' m * (x i + p.dx i / 2)))
          + sourceAt external i n g)
    (hin : ∀ g < p.groups, SweptInflow p.cells p.angles p.angleX p.bcL p.bcR
      (fun n => sourceAt boundary 0 n g) (fun n => sourceAt boundary 1 n g) (fun n i => a g n + b g n * x i))
    (guess : ℕ → ℕ → K) :
    ∃ flux, sourceIteration p xsTotal (.iso xs) external boundary guess = .ok flux ∧
      ∀ i < p.cells, ∀ g < p.groups, flux i g
        = ∑ n ∈ range p.angles, p.angleW n * (a g n + b g n * (x i + p.dx i / 2)) := by
  obtain ⟨flux, e, h1, h2⟩ := C22_downscatter_exact p xsTotal xs external boundary guess hok hdown
  refine ⟨flux, h1, fun i hi g hg => ?_⟩
  have hmid : ∀ g n, ∀ i < p.cells, ((a g n + b g n * x i) + (a g n + b g n * x (i + 1))) / 2
      = a g n + b g n * (x i + p.dx i / 2) := fun g n i hi => by rw [hx i hi]; ring
  have hS : SolvesMultigroup p xsTotal xs external boundary
      (fun i g => ∑ n ∈ range p.angles, p.angleW n * (a g n + b g n * (x i + p.dx i / 2)))
      (fun g n i => a g n + b g n * x i) := by
    refine ⟨fun g hg i hi => ?_, fun g hg n hn i hi => ?_, hin⟩
    · unfold scalarCenter
      exact sum_congr rfl fun n _ => by rw [hmid g n i hi]
    · have h := hbal g hg n hn i hi
      have hdx := ((hok g hg).phys i hi).1.ne'
      rw [hmid g n i hi]
      have e1 : p.angleX n * (a g n + b g n * x (i + 1) - (a g n + b g n * x i)) / p.dx i = p.angleX n * b g n := by
        rw [hx i hi]; field_simp; ring
      rw [e1]
      exact h
  exact downscatter_unique p xsTotal xs external boundary hok hdown h2 hS g hg i hi

end

/-! ## C128, second order -/

/-- The trapezoidal rule on one cell. -/
theorem trapezoid_cell {a d zeta : ℝ} (hd : 0 < d) {u u1 u2 : ℝ → ℝ}
    (h1 : ∀ y ∈ Set.Icc a (a + d), HasDerivWithinAt u (u1 y) (Set.Icc a (a + d)) y)
    (h2 : ∀ y ∈ Set.Icc a (a + d), HasDerivWithinAt u1 (u2 y) (Set.Icc a (a + d)) y)
    (hz : ∀ y ∈ Set.Icc a (a + d), |u2 y| ≤ zeta) :
    |(∫ y in a..a + d, u y) / d - (u a + u (a + d)) / 2| ≤ zeta * d ^ 2 / 12 := by
  have hlt : a < a + d := by linarith
  have hu : Set.uIcc a (a + d) = Set.Icc a (a + d) := Set.uIcc_of_le hlt.le
  have hud := uniqueDiffOn_Icc hlt
  have e1 : ∀ y ∈ Set.Icc a (a + d), derivWithin u (Set.Icc a (a + d)) y = u1 y := fun y hy =>
    (h1 y hy).derivWithin (hud y hy)
  have hd2 : ∀ y ∈ Set.Icc a (a + d),
      HasDerivWithinAt (derivWithin u (Set.Icc a (a + d))) (u2 y) (Set.Icc a (a + d)) y := fun y hy =>
    (h2 y hy).congr e1 (e1 y hy)
  have hzeta : 0 ≤ zeta := (abs_nonneg _).trans (hz a ⟨le_rfl, hlt.le⟩)
  have hb : ∀ y, |iteratedDerivWithin 2 u (Set.uIcc a (a + d)) y| ≤ zeta := by
    intro y
    rw [hu, iteratedDerivWithin_eq_iterate]
    show |derivWithin (derivWithin u (Set.Icc a (a + d))) (Set.Icc a (a + d)) y| ≤ zeta
    by_cases hy : y ∈ Set.Icc a (a + d)
    · rw [(hd2 y hy).derivWithin (hud y hy)]; exact hz y hy
    · rw [derivWithin_zero_of_notMem_closure (by rwa [closure_Icc]), abs_zero]; exact hzeta
  have := trapezoidal_error_le (f := u) (a := a) (b := a + d) (ζ := zeta) (N := 1)
    (by rw [hu]; exact fun y hy => (h1 y hy).differentiableWithinAt)
    (by rw [hu]; exact fun y hy => (hd2 y hy).differentiableWithinAt) hb one_pos
  unfold trapezoidal_error at this
  rw [trapezoidal_integral_one, add_sub_cancel_left, abs_of_pos hd] at this
  have h3 : (∫ y in a..a + d, u y) / d - (u a + u (a + d)) / 2
      = -((d / 2 * (u a + u (a + d)) - ∫ y in a..a + d, u y) / d) := by field_simp; ring
  rw [h3, abs_neg, abs_div, abs_of_pos hd, div_le_iff₀ hd]
  refine this.trans (le_of_eq ?_)
  norm_num
  ring

/-- Angular fluxes `u g n` on the slab with edges `x i` that solve the multigroup discrete-ordinates equations
pointwise: in every cell they are differentiable (one-sidedly at the edges) with
`mu u' + sigma u = sum xs sum_m w_m u_m + Q`, and they satisfy the boundary conditions at the two ends. The
source `Q` may jump from cell to cell. -/
structure ContinuousSolution (p : Problem ℝ) (x : ℕ → ℝ) (sigma : ℕ → ℕ → ℝ) (xs : ℕ → ℕ → ℕ → ℝ)
    (Q : ℕ → ℕ → ℕ → ℝ → ℝ) (bnd : Arr3 ℝ) (u : ℕ → ℕ → ℝ → ℝ) (u1 : ℕ → ℕ → ℕ → ℝ → ℝ) : Prop where
  mesh : ∀ i < p.cells, x (i + 1) = x i + p.dx i
  deriv : ∀ g < p.groups, ∀ n < p.angles, ∀ i < p.cells, ∀ y ∈ Set.Icc (x i) (x i + p.dx i),
    HasDerivWithinAt (u g n) (u1 g n i y) (Set.Icc (x i) (x i + p.dx i)) y
  transport : ∀ g < p.groups, ∀ n < p.angles, ∀ i < p.cells, ∀ y ∈ Set.Icc (x i) (x i + p.dx i),
    p.angleX n * u1 g n i y + sigma (p.mm i) g * u g n y
      = ∑ g' ∈ range p.groups, xs (p.mm i) g g' * (∑ m ∈ range p.angles, p.angleW m * u g' m y) + Q g n i y
  inflow : ∀ g < p.groups, SweptInflow p.cells p.angles p.angleX p.bcL p.bcR (fun n => sourceAt bnd 0 n g)
    (fun n => sourceAt bnd 1 n g) (fun n i => u g n (x i))

/-- Integrating over the cells. -/
theorem ContinuousSolution.balanced {p : Problem ℝ} {x : ℕ → ℝ} {sigma : ℕ → ℕ → ℝ} {xs : ℕ → ℕ → ℕ → ℝ}
    {Q : ℕ → ℕ → ℕ → ℝ → ℝ} {bnd ext : Arr3 ℝ} {u : ℕ → ℕ → ℝ → ℝ} {u1 : ℕ → ℕ → ℕ → ℝ → ℝ}
    (h : ContinuousSolution p x sigma xs Q bnd u u1) (hdx : ∀ i < p.cells, 0 < p.dx i)
    (hcont : ∀ g < p.groups, ∀ n < p.angles, ∀ i < p.cells,
      ContinuousOn (u1 g n i) (Set.Icc (x i) (x i + p.dx i)))
    (hext : ∀ g < p.groups, ∀ n < p.angles, ∀ i < p.cells,
      sourceAt ext i n g = (∫ y in x i..x i + p.dx i, Q g n i y) / p.dx i) :
    CellBalanced p sigma xs ext bnd (fun g n i => u g n (x i))
      (fun g n i => (∫ y in x i..x i + p.dx i, u g n y) / p.dx i) := by
  refine ⟨fun g hg n hn i hi => ?_, h.inflow⟩
  have hd := hdx i hi
  have hle : x i ≤ x i + p.dx i := by linarith
  have hui : Set.uIcc (x i) (x i + p.dx i) = Set.Icc (x i) (x i + p.dx i) := Set.uIcc_of_le hle
  have hcu : ∀ g < p.groups, ∀ n < p.angles, ContinuousOn (u g n) (Set.Icc (x i) (x i + p.dx i)) :=
    fun g hg n hn y hy => (h.deriv g hg n hn i hi y hy).continuousWithinAt
  have hiu : ∀ g < p.groups, ∀ n < p.angles,
      IntervalIntegrable (u g n) MeasureTheory.volume (x i) (x i + p.dx i) := fun g hg n hn =>
    ContinuousOn.intervalIntegrable (by rw [hui]; exact hcu g hg n hn)
  have hi1 : IntervalIntegrable (u1 g n i) MeasureTheory.volume (x i) (x i + p.dx i) :=
    ContinuousOn.intervalIntegrable (by rw [hui]; exact hcont g hg n hn i hi)
  have hftc : ∫ y in x i..x i + p.dx i, u1 g n i y = u g n (x i + p.dx i) - u g n (x i) :=
    intervalIntegral.integral_eq_sub_of_hasDerivAt_of_le hle (hcu g hg n hn)
      (fun y hy => (h.deriv g hg n hn i hi y (Set.Ioo_subset_Icc_self hy)).hasDerivAt
        (Icc_mem_nhds hy.1 hy.2)) hi1
  have hQ : ∫ y in x i..x i + p.dx i, Q g n i y
      = ∫ y in x i..x i + p.dx i, (p.angleX n * u1 g n i y + sigma (p.mm i) g * u g n y
        - ∑ g' ∈ range p.groups, xs (p.mm i) g g' * ∑ m ∈ range p.angles, p.angleW m * u g' m y) := by
    refine intervalIntegral.integral_congr fun y hy => ?_
    rw [hui] at hy
    have := h.transport g hg n hn i hi y hy
    linarith
  have hsum : ∀ g' ∈ range p.groups, IntervalIntegrable
      (fun y => xs (p.mm i) g g' * ∑ m ∈ range p.angles, p.angleW m * u g' m y) MeasureTheory.volume (x i)
      (x i + p.dx i) := fun g' hg' => by
    refine IntervalIntegrable.const_mul ?_ _
    have := IntervalIntegrable.sum (range p.angles) (f := fun m y => p.angleW m * u g' m y)
      (fun m hm => (hiu g' (mem_range.mp hg') m (mem_range.mp hm)).const_mul _)
    rw [Finset.sum_fn] at this
    exact this
  have hsum2 : IntervalIntegrable (fun y => ∑ g' ∈ range p.groups, xs (p.mm i) g g'
      * ∑ m ∈ range p.angles, p.angleW m * u g' m y) MeasureTheory.volume (x i) (x i + p.dx i) := by
    have := IntervalIntegrable.sum (range p.groups) (f := fun g' y => xs (p.mm i) g g'
      * ∑ m ∈ range p.angles, p.angleW m * u g' m y) hsum
    rw [Finset.sum_fn] at this
    exact this
  have hI : ∫ y in x i..x i + p.dx i, ∑ g' ∈ range p.groups, xs (p.mm i) g g'
      * ∑ m ∈ range p.angles, p.angleW m * u g' m y
      = ∑ g' ∈ range p.groups, xs (p.mm i) g g' * ∑ m ∈ range p.angles, p.angleW m
        * ∫ y in x i..x i + p.dx i, u g' m y := by
    rw [intervalIntegral.integral_finsetSum hsum]
    refine sum_congr rfl fun g' hg' => ?_
    rw [intervalIntegral.integral_const_mul, intervalIntegral.integral_finsetSum
      (fun m hm => (hiu g' (mem_range.mp hg') m (mem_range.mp hm)).const_mul _)]
    congr 1
    exact sum_congr rfl fun m _ => intervalIntegral.integral_const_mul _ _
  rw [hext g hg n hn i hi, hQ, intervalIntegral.integral_sub
    ((hi1.const_mul _).add ((hiu g hg n hn).const_mul _)) hsum2, intervalIntegral.integral_add
    (hi1.const_mul _) ((hiu g hg n hn).const_mul _), intervalIntegral.integral_const_mul,
    intervalIntegral.integral_const_mul, hftc, hI, h.mesh i hi]
  have e1 : ∑ g' ∈ range p.groups, xs (p.mm i) g g' * ∑ m ∈ range p.angles, p.angleW m
        * ((∫ y in x i..x i + p.dx i, u g' m y) / p.dx i)
      = (∑ g' ∈ range p.groups, xs (p.mm i) g g' * ∑ m ∈ range p.angles, p.angleW m
        * ∫ y in x i..x i + p.dx i, u g' m y) / p.dx i := by
    rw [sum_div]
    refine sum_congr rfl fun g' _ => ?_
    rw [mul_div_assoc, sum_div]
    congr 1
    exact sum_congr rfl fun m _ => by rw [mul_div_assoc]
  rw [e1]
  ring

/-- C128: `source_iteration` is second-order accurate in space.  Let `u` solve the discrete-ordinates equations
pointwise, twice differentiable in every cell with second derivatives at most `zeta`, and let the external
source be given by its cell averages, on a mesh of width at most `d` that is fine in the sense of C16, in a
medium with `sum xs ≤ c sigma`, `c < 1`.  Then the returned flux is within `zeta d^2 / (6 (1 - c))` of the cell
averages of the exact scalar flux, up to an iteration error that decays like `c^sweeps`. -/
theorem C128_second_order (p : Problem ℝ) (x : ℕ → ℝ) (xsTotal : ℕ → ℕ → ℝ) (xs : ℕ → ℕ → ℕ → ℝ)
    (external boundary : Arr3 ℝ) (c : ℝ) (hc : 0 ≤ c) (hc1 : c < 1) (hcon : Contractive p xsTotal xs c)
    (Q : ℕ → ℕ → ℕ → ℝ → ℝ) (u : ℕ → ℕ → ℝ → ℝ) (u1 u2 : ℕ → ℕ → ℕ → ℝ → ℝ) (zeta d : ℝ)
    (hz0 : 0 ≤ zeta) (hdx : ∀ i < p.cells, 0 < p.dx i ∧ p.dx i ≤ d)
    (hu : ContinuousSolution p x xsTotal xs Q boundary u u1)
    (hu2 : ∀ g < p.groups, ∀ n < p.angles, ∀ i < p.cells, ∀ y ∈ Set.Icc (x i) (x i + p.dx i),
      HasDerivWithinAt (u1 g n i) (u2 g n i y) (Set.Icc (x i) (x i + p.dx i)) y ∧ |u2 g n i y| ≤ zeta)
    (hext : ∀ g < p.groups, ∀ n < p.angles, ∀ i < p.cells,
      sourceAt external i n g = (∫ y in x i..x i + p.dx i, Q g n i y) / p.dx i)
    (guess : ℕ → ℕ → ℝ) (M : ℝ) (hM : 0 ≤ M)
    (hguess : ∀ i < p.cells, ∀ g < p.groups, |guess i g
      - ∑ n ∈ range p.angles, p.angleW n * ((∫ y in x i..x i + p.dx i, u g n y) / p.dx i)| ≤ M) :
    ∃ flux sweeps, 1 ≤ sweeps ∧ sweeps ≤ 100 ∧
      sourceIteration p xsTotal (.iso xs) external boundary guess = .ok flux ∧
      (sweeps < 100 → ∃ prev, p.convOut flux prev = true) ∧
      ∀ i < p.cells, ∀ g < p.groups, |flux i g
          - ∑ n ∈ range p.angles, p.angleW n * ((∫ y in x i..x i + p.dx i, u g n y) / p.dx i)|
        ≤ c ^ sweeps * (M + zeta * d ^ 2 / (6 * (1 - c))) + zeta * d ^ 2 / (6 * (1 - c)) := by
  have hb := hu.balanced (ext := external) (fun i hi => (hdx i hi).1)
    (fun g hg n hn i hi y hy => (hu2 g hg n hn i hi y hy).1.continuousWithinAt) hext
  have hpos : 0 < 1 - c := by linarith
  obtain ⟨flux, s, h1, h2, h3, h4, h5⟩ := C128_source_iteration p xsTotal xs external boundary c hc hc1 hcon _ _
    hb (zeta * d ^ 2 / 12) (by positivity) (fun g hg n hn i hi => by
      have := trapezoid_cell (hdx i hi).1 (hu.deriv g hg n hn i hi) (fun y hy => (hu2 g hg n hn i hi y hy).1)
        (fun y hy => (hu2 g hg n hn i hi y hy).2)
      rw [← hu.mesh i hi] at this
      rw [hu.mesh i hi] at this ⊢
      refine this.trans ?_
      have : p.dx i ^ 2 ≤ d ^ 2 := pow_le_pow_left₀ (hdx i hi).1.le (hdx i hi).2 2
      have := mul_le_mul_of_nonneg_left this hz0
      linarith) guess M hM hguess
  have e : 2 / (1 - c) * (zeta * d ^ 2 / 12) = zeta * d ^ 2 / (6 * (1 - c)) := by field_simp; ring
  rw [e] at h5
  exact ⟨flux, s, h1, h2, h3, h4, h5⟩

/-! ## Examples -/

theorem exFlat_contractive_steady {K : Type} [Field K] [LinearOrder K] [IsStrictOrderedRing K] :
    Contractive (exFlat K) (fun _ _ => 1) (exFlatXs K) (1 / 2) where
  ok := fun g _ => exFlat_ok g
  fine := fun g _ n _ i _ => by
    have h : |(exFlat K).angleX n| = 1 / 2 := by
      show |if n = 0 then (-1 / 2 : K) else 1 / 2| = 1 / 2
      split
      · rw [show (-1 / 2 : K) = -(1 / 2) by ring, abs_neg, abs_of_pos (by norm_num)]
      · exact abs_of_pos (by norm_num)
    rw [h]
    show (1 : K) * (1 / 10) ≤ _
    norm_num
  weights := exFlat_tame.weights
  norm := exFlat_tame.norm
  nonneg := fun i _ g _ g' _ => by
    simp only [exFlatXs]
    split <;> norm_num
  rows := fun i _ g hg => by
    have hg : g < 2 := hg
    show ∑ g' ∈ range 2, _ ≤ (1 / 2 * 1 : K)
    simp only [exFlatXs, sum_range_succ, sum_range_zero]
    rcases g with _ | _ | g
    · norm_num
    · norm_num
    · omega

/-- Vacuum boundaries: the inflow of a field is its boundary value. -/
theorem exFlat_inflow {K : Type} [Field K] [LinearOrder K] [IsStrictOrderedRing K] (f : ℕ → ℕ → K) (g : ℕ)
    (bL bR : ℕ → K) (h : ∀ n < 2, (if 0 < (exFlat K).angleX n then f n 0 else f n 2)
      = if 0 < (exFlat K).angleX n then bL n else bR n) :
    SweptInflow (exFlat K).cells (exFlat K).angles (exFlat K).angleX (exFlat K).bcL (exFlat K).bcR bL bR f := by
  intro n hn
  have hr : ∀ x : K, ¬ leavesReflecting (exFlat K).bcL (exFlat K).bcR x := by
    intro x; simp [leavesReflecting, exFlat]
  have h2 : ¬ ((exFlat K).angles - 1 - n < n ∧ leavesReflecting (exFlat K).bcL (exFlat K).bcR
    ((exFlat K).angleX ((exFlat K).angles - 1 - n))) := fun h => hr _ h.2
  rw [if_neg h2, add_zero]
  exact h n hn

/-- `1 + x` in direction 0, `2 + 3 x` in direction 1, on the mesh 0, 1/10, 2/10. -/
example (guess : ℕ → ℕ → ℚ) : ∃ flux, sourceIteration (exFlat ℚ) (fun _ _ => 1) (.iso (exFlatXs ℚ))
    ⟨2, 2, fun i n g => (exFlat ℚ).angleX n * (if n = 0 then 1 else 3)
      + 1 * ((if n = 0 then 1 else 2) + (if n = 0 then 1 else 3) * ((i : ℚ) / 10 + 1 / 10 / 2))
      - ∑ g' ∈ range 2, exFlatXs ℚ 0 g g' * ∑ m ∈ range 2, 1 / 2 *
        ((if m = 0 then 1 else 2) + (if m = 0 then 1 else 3) * ((i : ℚ) / 10 + 1 / 10 / 2))⟩
    ⟨1, 1, fun s _ _ => if s = 0 then 2 else 1 + 2 / 10⟩ guess = .ok flux ∧
    ∀ i < 2, ∀ g < 2, flux i g = ∑ n ∈ range 2, 1 / 2 *
      ((if n = 0 then 1 else 2) + (if n = 0 then 1 else 3) * ((i : ℚ) / 10 + 1 / 10 / 2)) :=
  C127_downscatter (exFlat ℚ) (fun _ _ => 1) (exFlatXs ℚ) _ _ (fun g _ => exFlat_ok g)
    (fun m g g' h => by simp only [exFlatXs]; rw [if_neg (by omega)]) (fun i => (i : ℚ) / 10)
    (fun i _ => by push_cast; show _ = _ + (1 / 10 : ℚ); ring) (fun _ n => if n = 0 then 1 else 2)
    (fun _ n => if n = 0 then 1 else 3)
    (fun g hg n hn i hi => by
      rw [sourceAt_full (A := 2) (G := 2) _ hn hg]
      show _ = ∑ g' ∈ range 2, exFlatXs ℚ 0 g g' * ∑ m ∈ range 2, 1 / 2 *
        ((if m = 0 then 1 else 2) + (if m = 0 then 1 else 3) * ((i : ℚ) / 10 + 1 / 10 / 2)) + _
      rw [add_sub_cancel]
      rfl)
    (fun g hg => exFlat_inflow _ g _ _ fun n hn => by
      rcases n with _ | _ | n
      · norm_num [exFlat, sourceAt]
      · norm_num [exFlat, sourceAt]
      · omega) guess

/-- The pointwise solution `y^2` with its source; second derivative 2. -/
theorem exQuadratic : ContinuousSolution (exFlat ℝ) (fun i => (i : ℝ) / 10) (fun _ _ => 1) (exFlatXs ℝ)
    (fun g n _ y => (exFlat ℝ).angleX n * (2 * y) + y ^ 2 - ∑ g' ∈ range 2, exFlatXs ℝ 0 g g' * y ^ 2)
    ⟨1, 1, fun s _ _ => if s = 0 then 0 else (2 / 10) ^ 2⟩ (fun _ _ y => y ^ 2) (fun _ _ _ y => 2 * y) where
  mesh := fun i _ => by push_cast; show _ = _ + (1 / 10 : ℝ); ring
  deriv := fun g _ n _ i _ y _ => by simpa using (hasDerivAt_pow 2 y).hasDerivWithinAt
  transport := fun g _ n _ i _ y _ => by
    have hq : ∑ m ∈ range (exFlat ℝ).angles, (exFlat ℝ).angleW m * y ^ 2 = y ^ 2 := by
      rw [← sum_mul, exFlat_tame.norm, one_mul]
    show _ = ∑ g' ∈ range 2, exFlatXs ℝ 0 g g' * (∑ m ∈ range (exFlat ℝ).angles, (exFlat ℝ).angleW m * y ^ 2) + _
    rw [hq]
    ring
  inflow := fun g _ => exFlat_inflow _ g _ _ fun n hn => by
    rcases n with _ | _ | n
    · norm_num [exFlat, sourceAt]
    · norm_num [exFlat, sourceAt]
    · omega

example (guess : ℕ → ℕ → ℝ) (M : ℝ) (hM : 0 ≤ M) (hguess : ∀ i < 2, ∀ g < 2, |guess i g
      - ∑ n ∈ range 2, 1 / 2 * ((∫ y in (i : ℝ) / 10..(i : ℝ) / 10 + 1 / 10, y ^ 2) / (1 / 10))| ≤ M) :=
  C128_second_order (exFlat ℝ) (fun i => (i : ℝ) / 10) (fun _ _ => 1) (exFlatXs ℝ)
    ⟨2, 2, fun i n g => (∫ y in (i : ℝ) / 10..(i : ℝ) / 10 + 1 / 10,
      ((exFlat ℝ).angleX n * (2 * y) + y ^ 2 - ∑ g' ∈ range 2, exFlatXs ℝ 0 g g' * y ^ 2)) / (1 / 10)⟩ _ (1 / 2)
    (by norm_num) (by norm_num) exFlat_contractive_steady _ _ _ (fun _ _ _ _ => 2) 2 (1 / 10) (by norm_num)
    (fun i _ => ⟨by show (0 : ℝ) < 1 / 10; norm_num, le_rfl⟩) exQuadratic
    (fun g _ n _ i _ y _ => ⟨by simpa using ((hasDerivAt_id y).const_mul 2).hasDerivWithinAt, by norm_num⟩)
    (fun g hg n hn i hi => sourceAt_full _ hn hg) guess M hM hguess

end Discrete1.Props
