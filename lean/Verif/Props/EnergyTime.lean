import Verif.Props.Energy
import Mathlib.Analysis.Calculus.MeanValue
import Mathlib.Analysis.Calculus.Deriv.Pow
import Mathlib.Analysis.Real.Sqrt

/-!
# C148, C149: the time integrators in the mean square, on every mesh and for every time step

C148: differences between two runs never grow (backward Euler), or stay within a factor of three (BDF2);
C149: `backward_euler` is first-order and `bdf2` second-order accurate.  No condition on cell widths or steps.
-/

set_option linter.unusedSectionVars false
set_option linter.unusedSimpArgs false

namespace Discrete1.Props

open Finset Discrete1.Spec Discrete1.Slab Discrete1.Tools Discrete1.MultiGroup Discrete1.Drivers

variable {K : Type} [Field K] [LinearOrder K] [IsStrictOrderedRing K]

/-! ## The mean square over phase space -/

/-- `∑ 1/v ∫∫ a b`: sum over groups (with `1/v`), directions (quadrature) and cells (widths). -/
def vdot (p : Problem K) (velocity : ℕ → K) (a b : ℕ → ℕ → ℕ → K) : K :=
  ∑ g ∈ range p.groups, 1 / velocity g *
    ∑ n ∈ range p.angles, p.angleW n * ∑ i ∈ range p.cells, p.dx i * (a i n g * b i n g)

/-- Mean square of a scalar flux: sum over groups (with `1/v`) and cells (widths). -/
def scalarSquare (p : Problem K) (velocity : ℕ → K) (f : ℕ → ℕ → K) : K :=
  ∑ g ∈ range p.groups, 1 / velocity g * ∑ i ∈ range p.cells, p.dx i * f i g ^ 2

theorem vdot_eq (p : Problem K) (velocity : ℕ → K) (a b : ℕ → ℕ → ℕ → K) :
    vdot p velocity a b = ∑ x ∈ range p.groups ×ˢ range p.angles ×ˢ range p.cells,
      (1 / velocity x.1 * (p.angleW x.2.1 * p.dx x.2.2)) * (a x.2.2 x.2.1 x.1 * b x.2.2 x.2.1 x.1) := by
  unfold vdot
  rw [sum_product]
  refine sum_congr rfl fun g _ => ?_
  rw [sum_product, mul_sum]
  refine sum_congr rfl fun n _ => ?_
  rw [mul_sum, mul_sum]
  exact sum_congr rfl fun i _ => by ring

theorem vdot_congr {p : Problem K} {velocity : ℕ → K} {a b a' b' : ℕ → ℕ → ℕ → K}
    (ha : ∀ i < p.cells, ∀ n < p.angles, ∀ g < p.groups, a i n g = a' i n g)
    (hb : ∀ i < p.cells, ∀ n < p.angles, ∀ g < p.groups, b i n g = b' i n g) :
    vdot p velocity a b = vdot p velocity a' b' := by
  rw [vdot_eq, vdot_eq]
  refine sum_congr rfl fun x hx => ?_
  simp only [mem_product, mem_range] at hx
  rw [ha _ hx.2.2 _ hx.2.1 _ hx.1, hb _ hx.2.2 _ hx.2.1 _ hx.1]

/-- Positive widths and velocities, non-negative weights. -/
structure Weighted (p : Problem K) (velocity : ℕ → K) : Prop where
  weights : ∀ n < p.angles, 0 ≤ p.angleW n
  widths : ∀ i < p.cells, 0 < p.dx i
  velocity : ∀ g < p.groups, 0 < velocity g

theorem Weighted.nonneg {p : Problem K} {velocity : ℕ → K} (h : Weighted p velocity)
    {x : ℕ × ℕ × ℕ} (hx : x ∈ range p.groups ×ˢ range p.angles ×ˢ range p.cells) :
    0 ≤ 1 / velocity x.1 * (p.angleW x.2.1 * p.dx x.2.2) := by
  simp only [mem_product, mem_range] at hx
  exact mul_nonneg (one_div_pos.mpr (h.velocity _ hx.1)).le
    (mul_nonneg (h.weights _ hx.2.1) (h.widths _ hx.2.2).le)

theorem vdot_self_nonneg {p : Problem K} {velocity : ℕ → K} (h : Weighted p velocity) (a : ℕ → ℕ → ℕ → K) :
    0 ≤ vdot p velocity a a := by
  rw [vdot_eq]
  exact sum_nonneg fun x hx => mul_nonneg (h.nonneg hx) (mul_self_nonneg _)

theorem vdot_cauchy {p : Problem K} {velocity : ℕ → K} (h : Weighted p velocity) (a b : ℕ → ℕ → ℕ → K) :
    vdot p velocity a b ^ 2 ≤ vdot p velocity a a * vdot p velocity b b := by
  rw [vdot_eq, vdot_eq, vdot_eq]
  refine sum_sq_le_sum_mul_sum_of_sq_eq_mul _ (fun x hx => mul_nonneg (h.nonneg hx) (mul_self_nonneg _))
    (fun x hx => mul_nonneg (h.nonneg hx) (mul_self_nonneg _)) fun x _ => by ring

/-- Square of a sum. -/
theorem vdot_minkowski {p : Problem K} {velocity : ℕ → K} (h : Weighted p velocity) {a b : ℕ → ℕ → ℕ → K}
    {R T : K} (hR : 0 ≤ R) (hT : 0 ≤ T) (ha : vdot p velocity a a ≤ R ^ 2) (hb : vdot p velocity b b ≤ T ^ 2) :
    vdot p velocity (fun i n g => a i n g + b i n g) (fun i n g => a i n g + b i n g) ≤ (R + T) ^ 2 := by
  have e : vdot p velocity (fun i n g => a i n g + b i n g) (fun i n g => a i n g + b i n g)
      = vdot p velocity a a + vdot p velocity b b + 2 * vdot p velocity a b := by
    simp only [vdot_eq]
    rw [mul_sum, ← sum_add_distrib, ← sum_add_distrib]
    exact sum_congr rfl fun x _ => by ring
  have h1 : vdot p velocity a b ≤ R * T := by
    refine (le_abs_self _).trans (abs_le_of_sq_le_sq ?_ (mul_nonneg hR hT))
    refine (vdot_cauchy h a b).trans ?_
    rw [mul_pow]
    exact mul_le_mul ha hb (vdot_self_nonneg h b) (sq_nonneg R)
  rw [e]
  nlinarith

theorem vdot_smul {p : Problem K} {velocity : ℕ → K} (c : K) (a : ℕ → ℕ → ℕ → K) :
    vdot p velocity (fun i n g => c * a i n g) (fun i n g => c * a i n g) = c ^ 2 * vdot p velocity a a := by
  simp only [vdot_eq]
  rw [mul_sum]
  exact sum_congr rfl fun x _ => by ring

/-- If `X ≤ y` and `y^2 ≤ B^2 X`, then `X ≤ B^2`. -/
theorem le_sq_of_work {X y B : K} (hX : 0 ≤ X) (h1 : X ≤ y) (h2 : y ^ 2 ≤ B ^ 2 * X) : X ≤ B ^ 2 := by
  rcases hX.eq_or_lt with h0 | hpos
  · rw [← h0]; exact sq_nonneg _
  · have h3 : X ^ 2 ≤ y ^ 2 := pow_le_pow_left₀ hX h1 2
    have h4 : X * X ≤ B ^ 2 * X := by nlinarith
    exact le_of_mul_le_mul_right h4 hpos

/-- If `X ≤ R^2 + y` and `y^2 ≤ B^2 X`, then `X ≤ (R + B)^2`. -/
theorem le_sq_of_growth {X y R B : K} (hX : 0 ≤ X) (hR : 0 ≤ R) (hB : 0 ≤ B) (h1 : X ≤ R ^ 2 + y)
    (h2 : y ^ 2 ≤ B ^ 2 * X) : X ≤ (R + B) ^ 2 := by
  by_contra hlt
  push Not at hlt
  have h3 : (X - R ^ 2) ^ 2 ≤ B ^ 2 * X := by
    have hpos : 0 ≤ X - R ^ 2 := by nlinarith [mul_nonneg hR hB, sq_nonneg B]
    exact (pow_le_pow_left₀ hpos (by linarith) 2).trans h2
  -- with X = (R+B)^2 + z, z > 0
  obtain ⟨z, hz, rfl⟩ : ∃ z, 0 < z ∧ X = (R + B) ^ 2 + z := ⟨X - (R + B) ^ 2, by linarith, by ring⟩
  have e : ((R + B) ^ 2 + z - R ^ 2) ^ 2 - B ^ 2 * ((R + B) ^ 2 + z)
      = B ^ 2 * (R * (3 * R + 2 * B)) + z * (4 * R * B + B ^ 2) + z ^ 2 := by ring
  have h4 : 0 ≤ B ^ 2 * (R * (3 * R + 2 * B)) := by positivity
  have h5 : 0 ≤ z * (4 * R * B + B ^ 2) := by positivity
  have h6 : 0 < z ^ 2 := by positivity
  linarith

/-- The scalar flux is no larger than the angular flux. -/
theorem scalarSquare_le {p : Problem K} {velocity : ℕ → K} (h : Weighted p velocity)
    (hsum : ∑ n ∈ range p.angles, p.angleW n = 1) (a : ℕ → ℕ → ℕ → K) :
    scalarSquare p velocity (quadrature p a) ≤ vdot p velocity a a := by
  unfold scalarSquare vdot
  refine sum_le_sum fun g hg => ?_
  refine mul_le_mul_of_nonneg_left ?_ (one_div_pos.mpr (h.velocity g (mem_range.mp hg))).le
  have e : ∑ n ∈ range p.angles, p.angleW n * ∑ i ∈ range p.cells, p.dx i * (a i n g * a i n g)
      = ∑ i ∈ range p.cells, p.dx i * ∑ n ∈ range p.angles, p.angleW n * a i n g ^ 2 := by
    simp only [mul_sum]
    rw [sum_comm]
    exact sum_congr rfl fun i _ => sum_congr rfl fun n _ => by ring
  rw [e]
  refine sum_le_sum fun i hi => mul_le_mul_of_nonneg_left ?_ (h.widths i (mem_range.mp hi)).le
  unfold quadrature
  exact jensen h.weights hsum

theorem scalarSquare_congr {p : Problem K} {velocity : ℕ → K} {f f' : ℕ → ℕ → K}
    (h : ∀ i < p.cells, ∀ g < p.groups, f i g = f' i g) :
    scalarSquare p velocity f = scalarSquare p velocity f' := by
  unfold scalarSquare
  refine sum_congr rfl fun g hg => congrArg _ (sum_congr rfl fun i hi => ?_)
  rw [h i (mem_range.mp hi) g (mem_range.mp hg)]

/-! ## One implicit step -/

/-- In every material, scattering and fission return no more than collisions remove, in the mean square
over the groups. -/
def Dissipative (p : Problem K) (sigma : ℕ → ℕ → K) (xs : ℕ → ℕ → ℕ → K) : Prop :=
  ∀ i < p.cells, ∀ f : ℕ → K, ∑ g ∈ range p.groups, (∑ g' ∈ range p.groups, xs (p.mm i) g g' * f g') * f g
    ≤ ∑ g ∈ range p.groups, sigma (p.mm i) g * f g ^ 2

/-- A sufficient condition: what is transferred into group `g` plus what is transferred out of group `g` is at
most twice the total cross section of `g`. -/
theorem Dissipative.of_sums {p : Problem K} {sigma : ℕ → ℕ → K} {xs : ℕ → ℕ → ℕ → K}
    (h : ∀ i < p.cells, ∀ g < p.groups, ∑ g' ∈ range p.groups, |xs (p.mm i) g g'|
      + ∑ g' ∈ range p.groups, |xs (p.mm i) g' g| ≤ 2 * sigma (p.mm i) g) : Dissipative p sigma xs := by
  intro i hi f
  have h1 : ∑ g ∈ range p.groups, (∑ g' ∈ range p.groups, xs (p.mm i) g g' * f g') * f g
      ≤ ∑ g ∈ range p.groups, ∑ g' ∈ range p.groups, (|xs (p.mm i) g g'| * f g' ^ 2 / 2
        + |xs (p.mm i) g g'| * f g ^ 2 / 2) := by
    refine sum_le_sum fun g _ => ?_
    rw [sum_mul]
    refine sum_le_sum fun g' _ => ?_
    set s := xs (p.mm i) g g'
    have h2 : s * f g' * f g ≤ |s| * (|f g'| * |f g|) := by
      rw [← abs_mul, ← abs_mul, mul_assoc]; exact le_abs_self _
    have h3 : |f g'| * |f g| ≤ (f g' ^ 2 + f g ^ 2) / 2 := by
      have := sq_nonneg (|f g'| - |f g|)
      rw [sub_sq, sq_abs, sq_abs] at this
      linarith
    have h4 := mul_le_mul_of_nonneg_left h3 (abs_nonneg s)
    linarith
  refine h1.trans ?_
  have h2 : ∑ g ∈ range p.groups, ∑ g' ∈ range p.groups, (|xs (p.mm i) g g'| * f g' ^ 2 / 2
        + |xs (p.mm i) g g'| * f g ^ 2 / 2)
      = ∑ g ∈ range p.groups, (∑ g' ∈ range p.groups, |xs (p.mm i) g g'|
          + ∑ g' ∈ range p.groups, |xs (p.mm i) g' g|) * (f g ^ 2 / 2) := by
    simp only [sum_add_distrib]
    rw [sum_comm, ← sum_add_distrib]
    refine sum_congr rfl fun g _ => ?_
    rw [add_mul, sum_mul, sum_mul, add_comm]
    refine congrArg₂ _ (sum_congr rfl fun _ _ => by ring) (sum_congr rfl fun _ _ => by ring)
  rw [h2]
  refine sum_le_sum fun g hg => ?_
  have := mul_le_mul_of_nonneg_right (h i hi g (mem_range.mp hg)) (div_nonneg (sq_nonneg (f g)) zero_le_two)
  linarith

/-- Energy estimate of an implicit step without boundary input: `rate` is `rho / (v dt)`, the source `s / v`. -/
theorem implicit_energy {p : Problem K} {sigma : ℕ → ℕ → K} {xs : ℕ → ℕ → ℕ → K} {velocity : ℕ → K} {dt : K}
    (hok : TimedOk p sigma velocity dt) (hw : Weighted p velocity)
    (hsum : ∑ n ∈ range p.angles, p.angleW n = 1)
    (hev : EvenReflection p.angles p.angleX p.angleW p.bcL p.bcR) (hdis : Dissipative p sigma xs)
    {rho s d : ℕ → ℕ → ℕ → K}
    (h : ImplicitStep p sigma xs (quadrature p d) (fun i n g => rho i n g / (velocity g * dt))
      (fullArr p fun i n g => s i n g / velocity g) zeroBoundary d) :
    vdot p velocity rho d ≤ dt * vdot p velocity s d := by
  obtain ⟨e, he⟩ := h
  -- one group
  have h1 : ∀ g ∈ range p.groups,
      ∑ n ∈ range p.angles, p.angleW n * ∑ i ∈ range p.cells, p.dx i * (sigma (p.mm i) g * d i n g ^ 2)
        + 1 / (velocity g * dt) * ∑ n ∈ range p.angles, p.angleW n * ∑ i ∈ range p.cells, p.dx i * (rho i n g * d i n g)
        ≤ ∑ i ∈ range p.cells, p.dx i * ((∑ g' ∈ range p.groups, xs (p.mm i) g g' * quadrature p d i g')
            * quadrature p d i g)
          + 1 / velocity g * ∑ n ∈ range p.angles, p.angleW n * ∑ i ∈ range p.cells, p.dx i * (s i n g * d i n g) := by
    intro g hg
    have hg := mem_range.mp hg
    obtain ⟨m, b, hin⟩ := he g hg
    have hb : AllBalanced p.cells p.angles p.angleX p.dx (fun i => sigma (p.mm i) g)
        (fun n i => ∑ g' ∈ range p.groups, xs (p.mm i) g g' * quadrature p d i g'
          + s i n g / velocity g - rho i n g / (velocity g * dt)) (e g) := by
      intro n hn i hi
      have := b n hn i hi
      rw [show sourceAt (fullArr p fun i n g => s i n g / velocity g) i n g = s i n g / velocity g from
        sourceAt_full _ hn hg] at this
      rw [← m n hn i hi]
      linear_combination this
    have key := swept_energy hw.weights hev (hok.ok g hg).nonzero (hok.ok g hg).phys hb hin
      (fun n _ _ _ => by simp [sourceAt, zeroBoundary])
    have hz : ∑ n ∈ range p.angles, p.angleW n * (|p.angleX n| / 2 * (if 0 < p.angleX n then
        sourceAt (zeroBoundary : Arr3 K) 0 n g else sourceAt (zeroBoundary : Arr3 K) 1 n g) ^ 2) = 0 :=
      sum_eq_zero fun n _ => by simp [sourceAt, zeroBoundary]
    rw [hz, add_zero] at key
    have e1 : ∑ n ∈ range p.angles, p.angleW n * ∑ i ∈ range p.cells, p.dx i * (sigma (p.mm i) g *
          ((e g n i + e g n (i + 1)) / 2) ^ 2)
        = ∑ n ∈ range p.angles, p.angleW n * ∑ i ∈ range p.cells, p.dx i * (sigma (p.mm i) g * d i n g ^ 2) :=
      sum_congr rfl fun n hn => congrArg _ (sum_congr rfl fun i hi => by
        rw [m n (mem_range.mp hn) i (mem_range.mp hi)])
    have e2 : ∑ n ∈ range p.angles, p.angleW n * ∑ i ∈ range p.cells, p.dx i *
          ((∑ g' ∈ range p.groups, xs (p.mm i) g g' * quadrature p d i g'
          + s i n g / velocity g - rho i n g / (velocity g * dt)) * ((e g n i + e g n (i + 1)) / 2))
        = ∑ n ∈ range p.angles, p.angleW n * ∑ i ∈ range p.cells, p.dx i *
            ((∑ g' ∈ range p.groups, xs (p.mm i) g g' * quadrature p d i g') * d i n g)
          + 1 / velocity g * ∑ n ∈ range p.angles, p.angleW n * ∑ i ∈ range p.cells, p.dx i * (s i n g * d i n g)
          - 1 / (velocity g * dt) * ∑ n ∈ range p.angles, p.angleW n * ∑ i ∈ range p.cells,
            p.dx i * (rho i n g * d i n g) := by
      rw [mul_sum, mul_sum, ← sum_add_distrib, ← sum_sub_distrib]
      refine sum_congr rfl fun n hn => ?_
      rw [mul_left_comm (1 / velocity g), mul_left_comm (1 / (velocity g * dt)), ← mul_add, ← mul_sub,
        mul_sum _ _ (1 / velocity g), mul_sum _ _ (1 / (velocity g * dt)), ← sum_add_distrib, ← sum_sub_distrib]
      refine congrArg _ (sum_congr rfl fun i hi => ?_)
      rw [← m n (mem_range.mp hn) i (mem_range.mp hi)]
      ring
    have e3 : ∑ n ∈ range p.angles, p.angleW n * ∑ i ∈ range p.cells, p.dx i *
            ((∑ g' ∈ range p.groups, xs (p.mm i) g g' * quadrature p d i g') * d i n g)
        = ∑ i ∈ range p.cells, p.dx i * ((∑ g' ∈ range p.groups, xs (p.mm i) g g' * quadrature p d i g')
            * quadrature p d i g) := by
      conv_rhs => unfold quadrature
      simp only [mul_sum]
      rw [sum_comm]
      refine sum_congr rfl fun i _ => sum_congr rfl fun n _ => ?_
      rw [sum_mul, mul_sum, mul_sum, sum_mul, mul_sum]
      refine sum_congr rfl fun g' _ => ?_
      unfold quadrature
      rw [mul_sum]
      ring
    beta_reduce at key
    rw [e1, e2, e3] at key
    linarith
  have h2 := sum_le_sum h1
  simp only [sum_add_distrib] at h2
  -- scattering
  have h3 : ∑ g ∈ range p.groups, ∑ i ∈ range p.cells, p.dx i *
        ((∑ g' ∈ range p.groups, xs (p.mm i) g g' * quadrature p d i g') * quadrature p d i g)
      ≤ ∑ g ∈ range p.groups, ∑ n ∈ range p.angles, p.angleW n *
        ∑ i ∈ range p.cells, p.dx i * (sigma (p.mm i) g * d i n g ^ 2) := by
    have e1 : ∑ g ∈ range p.groups, ∑ n ∈ range p.angles, p.angleW n *
          ∑ i ∈ range p.cells, p.dx i * (sigma (p.mm i) g * d i n g ^ 2)
        = ∑ i ∈ range p.cells, p.dx i * ∑ g ∈ range p.groups, sigma (p.mm i) g *
          ∑ n ∈ range p.angles, p.angleW n * d i n g ^ 2 := by
      have e0 : ∀ g ∈ range p.groups, ∑ n ∈ range p.angles, p.angleW n *
          ∑ i ∈ range p.cells, p.dx i * (sigma (p.mm i) g * d i n g ^ 2)
          = ∑ i ∈ range p.cells, p.dx i * (sigma (p.mm i) g * ∑ n ∈ range p.angles, p.angleW n * d i n g ^ 2) := by
        intro g _
        simp only [mul_sum]
        rw [sum_comm]
        exact sum_congr rfl fun i _ => sum_congr rfl fun n _ => by ring
      rw [sum_congr rfl e0, sum_comm]
      exact sum_congr rfl fun i _ => by rw [mul_sum]
    rw [e1, sum_comm]
    refine sum_le_sum fun i hi => ?_
    have hi := mem_range.mp hi
    rw [← mul_sum]
    refine mul_le_mul_of_nonneg_left ((hdis i hi _).trans ?_) (hw.widths i hi).le
    refine sum_le_sum fun g hg => mul_le_mul_of_nonneg_left ?_ ((hok.ok g (mem_range.mp hg)).phys i hi).2
    unfold quadrature
    exact jensen hw.weights hsum
  -- time derivative
  have h4 : ∑ g ∈ range p.groups, 1 / (velocity g * dt) * ∑ n ∈ range p.angles, p.angleW n *
        ∑ i ∈ range p.cells, p.dx i * (rho i n g * d i n g) = 1 / dt * vdot p velocity rho d := by
    unfold vdot
    rw [mul_sum]
    refine sum_congr rfl fun g _ => ?_
    rw [← mul_assoc]
    congr 1
    rw [one_div_mul_one_div, mul_comm]
  have h5 : 1 / dt * vdot p velocity rho d ≤ vdot p velocity s d := by
    rw [← h4]
    unfold vdot
    linarith
  have hdt := hok.dt
  rw [one_div, inv_mul_le_iff₀ hdt] at h5
  exact h5

/-! ## Differences of two evolutions -/

/-- Numerator of the difference quotient: `3/2 new - 2 psi_j + 1/2 psi_{j-1}` (BDF2 after the first step) or
`new - psi_j`. -/
def timeDiff (second : Bool) (j : ℕ) (psi : ℕ → ℕ → ℕ → ℕ → K) (i n g : ℕ) : K :=
  if second = true ∧ j ≠ 0 then 3 / 2 * psi (j + 1) i n g - 2 * psi j i n g + 1 / 2 * psi (j - 1) i n g
    else psi (j + 1) i n g - psi j i n g

/-- An implicit step against a solution of the semi-discrete equation with time derivative `D`. -/
theorem implicit_diff {p : Problem K} {sigma : ℕ → ℕ → K} {xs : ℕ → ℕ → ℕ → K} {velocity : ℕ → K} {dt : K}
    (hok : TimedOk p sigma velocity dt) {ext bnd : Arr3 K} {phi : ℕ → ℕ → K} {r psi E D : ℕ → ℕ → ℕ → K}
    (h : ImplicitStep p sigma xs phi (fun i n g => r i n g / (velocity g * dt)) ext bnd psi)
    (hphi : ∀ i < p.cells, ∀ g < p.groups, phi i g = quadrature p psi i g)
    (hE : TransportAt p sigma xs velocity ext bnd E D) (rE : ℕ → ℕ → ℕ → K) :
    ImplicitStep p sigma xs (quadrature p fun i n g => psi i n g - E i n g)
      (fun i n g => (r i n g - rE i n g) / (velocity g * dt))
      (fullArr p fun i n g => (D i n g - rE i n g / dt) / velocity g) zeroBoundary
      (fun i n g => psi i n g - E i n g) := by
  obtain ⟨e, he⟩ := h
  obtain ⟨e', he'⟩ := hE
  refine ⟨fun g n i => e g n i - e' g n i, fun g hg => ⟨fun n hn i hi => ?_, fun n hn i hi => ?_, fun n hn => ?_⟩⟩
  · beta_reduce
    rw [(he g hg).1 n hn i hi, (he' g hg).1 n hn i hi]; ring
  · rw [show sourceAt (fullArr p fun i n g => (D i n g - rE i n g / dt) / velocity g) i n g
      = (D i n g - rE i n g / dt) / velocity g from sourceAt_full _ hn hg]
    have hq : ∑ g' ∈ range p.groups, xs (p.mm i) g g' * quadrature p (fun i n g => psi i n g - E i n g) i g'
        = ∑ g' ∈ range p.groups, xs (p.mm i) g g' * phi i g'
          - ∑ g' ∈ range p.groups, xs (p.mm i) g g' * quadrature p E i g' := by
      rw [← sum_sub_distrib]
      refine sum_congr rfl fun g' hg' => ?_
      rw [hphi i hi g' (mem_range.mp hg'), ← mul_sub]
      congr 1
      unfold quadrature
      rw [← sum_sub_distrib]
      exact sum_congr rfl fun _ _ => by ring
    rw [hq]
    have a := (he g hg).2.1 n hn i hi
    have b := (he' g hg).2.1 n hn i hi
    have hv := (hok.velocity g hg).ne'
    have hdt := hok.dt.ne'
    have e1 : rE i n g / dt / velocity g = rE i n g / (velocity g * dt) := by rw [div_div, mul_comm]
    beta_reduce at a b ⊢
    rw [sub_div, sub_div, e1]
    linear_combination a - b
  · have a := (he g hg).2.2 n hn
    have b := (he' g hg).2.2 n hn
    simp only [inflow, outflow, sourceAt, zeroBoundary] at a b ⊢
    split_ifs at a b ⊢ <;> linear_combination a - b

/-- A fully implicit sequence solves the semi-discrete equation with its own difference quotient as derivative. -/
theorem implicit_transport {second : Bool} {p : Problem K} {sigma : ℕ → ℕ → K} {xs : ℕ → ℕ → ℕ → K}
    {velocity : ℕ → K} {external boundary : TimeArr K} {dt : K} {steps : ℕ} {psi : ℕ → ℕ → ℕ → ℕ → K}
    (h : FullyImplicit second p sigma xs velocity external boundary dt steps psi) (j : ℕ) (hj : j < steps) :
    TransportAt p sigma xs velocity (entry external j) (entry boundary j) (psi (j + 1))
      (fun i n g => timeDiff second j psi i n g / dt) := by
  refine implicit_congr (h j hj) (fun _ _ _ _ => rfl) ?_
  funext i n g
  unfold timeRate timeDiff
  rw [div_div, mul_comm dt]

/-- Energy of one step of the difference `psi - E`; `D` minus the difference quotient of `E` is the
truncation error. -/
theorem step_energy {second : Bool} {p : Problem K} {sigma : ℕ → ℕ → K} {xs : ℕ → ℕ → ℕ → K} {velocity : ℕ → K}
    {external boundary : TimeArr K} {dt : K} {steps : ℕ}
    (hok : TimedOk p sigma velocity dt) (hw : Weighted p velocity)
    (hsum : ∑ n ∈ range p.angles, p.angleW n = 1)
    (hev : EvenReflection p.angles p.angleX p.angleW p.bcL p.bcR) (hdis : Dissipative p sigma xs)
    {psi E D : ℕ → ℕ → ℕ → ℕ → K}
    (h : FullyImplicit second p sigma xs velocity external boundary dt steps psi)
    (j : ℕ) (hj : j < steps)
    (hE : TransportAt p sigma xs velocity (entry external j) (entry boundary j) (E (j + 1)) (D (j + 1))) :
    vdot p velocity (fun i n g => timeDiff second j (fun j i n g => psi j i n g - E j i n g) i n g)
        (fun i n g => psi (j + 1) i n g - E (j + 1) i n g)
      ≤ dt * vdot p velocity (fun i n g => D (j + 1) i n g - timeDiff second j E i n g / dt)
        (fun i n g => psi (j + 1) i n g - E (j + 1) i n g) := by
  have key := implicit_diff hok (r := timeDiff second j psi) (h j hj) (fun _ _ _ _ => rfl) hE (timeDiff second j E)
  refine implicit_energy hok hw hsum hev hdis (rho := fun i n g => timeDiff second j (fun j i n g => psi j i n g - E j i n g) i n g)
    (implicit_congr key (fun _ _ _ _ => rfl) ?_)
  funext i n g
  congr 1
  unfold timeDiff
  split_ifs <;> ring

/-! ## Growth over the steps -/

/-- One backward Euler step. -/
theorem euler_energy_step {p : Problem K} {velocity : ℕ → K} (hw : Weighted p velocity) {dt R T : K} (hdt : 0 ≤ dt)
    (hR : 0 ≤ R) (hT : 0 ≤ T) {old new s : ℕ → ℕ → ℕ → K}
    (h : vdot p velocity (fun i n g => new i n g - old i n g) new ≤ dt * vdot p velocity s new)
    (ho : vdot p velocity old old ≤ R ^ 2) (hs : vdot p velocity s s ≤ T ^ 2) :
    vdot p velocity new new ≤ (R + dt * T) ^ 2 := by
  have e : vdot p velocity (fun i n g => new i n g - old i n g) new
      = vdot p velocity new new - vdot p velocity old new := by
    simp only [vdot_eq]
    rw [← sum_sub_distrib]
    exact sum_congr rfl fun x _ => by ring
  have e2 : vdot p velocity (fun i n g => old i n g + dt * s i n g) new
      = vdot p velocity old new + dt * vdot p velocity s new := by
    simp only [vdot_eq]
    rw [mul_sum, ← sum_add_distrib]
    exact sum_congr rfl fun x _ => by ring
  refine le_sq_of_work (y := vdot p velocity (fun i n g => old i n g + dt * s i n g) new)
    (vdot_self_nonneg hw new) (by rw [e2]; linarith) ((vdot_cauchy hw _ _).trans ?_)
  refine mul_le_mul_of_nonneg_right ?_ (vdot_self_nonneg hw new)
  refine vdot_minkowski hw hR (mul_nonneg hdt hT) ho ?_
  rw [vdot_smul, mul_pow]
  exact mul_le_mul_of_nonneg_left hs (sq_nonneg _)

/-- The quantity controlled by BDF2: `|new|^2 + |2 new - old|^2`. -/
def bdfEnergy (p : Problem K) (velocity : ℕ → K) (new old : ℕ → ℕ → ℕ → K) : K :=
  vdot p velocity new new
    + vdot p velocity (fun i n g => 2 * new i n g - old i n g) (fun i n g => 2 * new i n g - old i n g)

theorem bdf_energy_step {p : Problem K} {velocity : ℕ → K} (hw : Weighted p velocity) {dt : K}
    {older old new s : ℕ → ℕ → ℕ → K}
    (h : vdot p velocity (fun i n g => 3 / 2 * new i n g - 2 * old i n g + 1 / 2 * older i n g) new
      ≤ dt * vdot p velocity s new) :
    bdfEnergy p velocity new old ≤ bdfEnergy p velocity old older + 4 * dt * vdot p velocity s new := by
  have e : 4 * vdot p velocity (fun i n g => 3 / 2 * new i n g - 2 * old i n g + 1 / 2 * older i n g) new
      = bdfEnergy p velocity new old - bdfEnergy p velocity old older
        + vdot p velocity (fun i n g => new i n g - 2 * old i n g + older i n g)
          (fun i n g => new i n g - 2 * old i n g + older i n g) := by
    unfold bdfEnergy
    simp only [vdot_eq]
    rw [mul_sum, ← sum_add_distrib, ← sum_add_distrib, ← sum_sub_distrib, ← sum_add_distrib]
    exact sum_congr rfl fun x _ => by ring
  have := vdot_self_nonneg hw (fun i n g => new i n g - 2 * old i n g + older i n g)
  linarith

theorem bdf_energy_growth {p : Problem K} {velocity : ℕ → K} (hw : Weighted p velocity) {dt R T : K} (hdt : 0 ≤ dt)
    (hR : 0 ≤ R) (hT : 0 ≤ T) {older old new s : ℕ → ℕ → ℕ → K}
    (h : vdot p velocity (fun i n g => 3 / 2 * new i n g - 2 * old i n g + 1 / 2 * older i n g) new
      ≤ dt * vdot p velocity s new)
    (ho : bdfEnergy p velocity old older ≤ R ^ 2) (hs : vdot p velocity s s ≤ T ^ 2) :
    bdfEnergy p velocity new old ≤ (R + 4 * dt * T) ^ 2 := by
  have h0 := vdot_self_nonneg hw new
  have h1 := vdot_self_nonneg hw fun i n g => 2 * new i n g - old i n g
  refine le_sq_of_growth (y := 4 * dt * vdot p velocity s new) (add_nonneg h0 h1) hR (by positivity)
    ((bdf_energy_step hw h).trans (by linarith)) ?_
  have hc := vdot_cauchy hw s new
  have h2 : vdot p velocity s s * vdot p velocity new new ≤ T ^ 2 * bdfEnergy p velocity new old :=
    mul_le_mul hs (le_add_of_nonneg_right h1) h0 (sq_nonneg T)
  calc (4 * dt * vdot p velocity s new) ^ 2 = (4 * dt) ^ 2 * vdot p velocity s new ^ 2 := by ring
    _ ≤ (4 * dt) ^ 2 * (T ^ 2 * bdfEnergy p velocity new old) :=
        mul_le_mul_of_nonneg_left (hc.trans h2) (sq_nonneg _)
    _ = (4 * dt * T) ^ 2 * bdfEnergy p velocity new old := by ring

/-! ## C148: stability -/

/-- C148 (backward Euler): the difference of two runs with the same sources does not grow. -/
theorem C148_backward_euler {p : Problem K} {sigma : ℕ → ℕ → K} {xs : ℕ → ℕ → ℕ → K} {velocity : ℕ → K}
    {external boundary : TimeArr K} {dt : K} {steps : ℕ}
    (hok : TimedOk p sigma velocity dt) (hw : Weighted p velocity)
    (hsum : ∑ n ∈ range p.angles, p.angleW n = 1)
    (hev : EvenReflection p.angles p.angleX p.angleW p.bcL p.bcR) (hdis : Dissipative p sigma xs)
    {psi psi' : ℕ → ℕ → ℕ → ℕ → K}
    (h : FullyImplicit false p sigma xs velocity external boundary dt steps psi)
    (h' : FullyImplicit false p sigma xs velocity external boundary dt steps psi') (j : ℕ) (hj : j < steps) :
    vdot p velocity (fun i n g => psi (j + 1) i n g - psi' (j + 1) i n g)
        (fun i n g => psi (j + 1) i n g - psi' (j + 1) i n g)
      ≤ vdot p velocity (fun i n g => psi j i n g - psi' j i n g) (fun i n g => psi j i n g - psi' j i n g) := by
  have key := step_energy hok hw hsum hev hdis h j hj (E := psi')
    (D := fun k i n g => timeDiff false (k - 1) psi' i n g / dt) (implicit_transport h' j hj)
  have hz : vdot p velocity (fun i n g => (fun k i n g => timeDiff false (k - 1) psi' i n g / dt) (j + 1) i n g
      - timeDiff false j psi' i n g / dt) (fun i n g => psi (j + 1) i n g - psi' (j + 1) i n g) = 0 := by
    rw [vdot_eq]
    exact sum_eq_zero fun x _ => by simp
  rw [hz, mul_zero] at key
  have e : 2 * vdot p velocity (fun i n g => timeDiff false j (fun j i n g => psi j i n g - psi' j i n g) i n g)
        (fun i n g => psi (j + 1) i n g - psi' (j + 1) i n g)
      = vdot p velocity (fun i n g => psi (j + 1) i n g - psi' (j + 1) i n g)
          (fun i n g => psi (j + 1) i n g - psi' (j + 1) i n g)
        - vdot p velocity (fun i n g => psi j i n g - psi' j i n g) (fun i n g => psi j i n g - psi' j i n g)
        + vdot p velocity (fun i n g => timeDiff false j (fun j i n g => psi j i n g - psi' j i n g) i n g)
          (fun i n g => timeDiff false j (fun j i n g => psi j i n g - psi' j i n g) i n g) := by
    simp only [vdot_eq]
    rw [mul_sum, ← sum_sub_distrib, ← sum_add_distrib]
    refine sum_congr rfl fun x _ => ?_
    simp only [timeDiff, Bool.false_eq_true, false_and, if_false]
    ring
  have := vdot_self_nonneg hw fun i n g => timeDiff false j (fun j i n g => psi j i n g - psi' j i n g) i n g
  linarith

/-- The first step of BDF2 is backward Euler. -/
theorem C148_bdf2_first {p : Problem K} {sigma : ℕ → ℕ → K} {xs : ℕ → ℕ → ℕ → K} {velocity : ℕ → K}
    {external boundary : TimeArr K} {dt : K} {steps : ℕ}
    (hok : TimedOk p sigma velocity dt) (hw : Weighted p velocity)
    (hsum : ∑ n ∈ range p.angles, p.angleW n = 1)
    (hev : EvenReflection p.angles p.angleX p.angleW p.bcL p.bcR) (hdis : Dissipative p sigma xs)
    {psi psi' : ℕ → ℕ → ℕ → ℕ → K}
    (h : FullyImplicit true p sigma xs velocity external boundary dt steps psi)
    (h' : FullyImplicit true p sigma xs velocity external boundary dt steps psi') (hj : 0 < steps) :
    bdfEnergy p velocity (fun i n g => psi 1 i n g - psi' 1 i n g) (fun i n g => psi 0 i n g - psi' 0 i n g)
      ≤ 3 * vdot p velocity (fun i n g => psi 0 i n g - psi' 0 i n g) (fun i n g => psi 0 i n g - psi' 0 i n g) := by
  have key := step_energy hok hw hsum hev hdis h 0 hj (E := psi')
    (D := fun k i n g => timeDiff true (k - 1) psi' i n g / dt) (implicit_transport h' 0 hj)
  have hz : vdot p velocity (fun i n g => (fun k i n g => timeDiff true (k - 1) psi' i n g / dt) (0 + 1) i n g
      - timeDiff true 0 psi' i n g / dt) (fun i n g => psi (0 + 1) i n g - psi' (0 + 1) i n g) = 0 := by
    rw [vdot_eq]
    exact sum_eq_zero fun x _ => by simp
  rw [hz, mul_zero] at key
  simp only [zero_add] at key
  have e : 6 * vdot p velocity (fun i n g => timeDiff true 0 (fun j i n g => psi j i n g - psi' j i n g) i n g)
        (fun i n g => psi 1 i n g - psi' 1 i n g)
      = bdfEnergy p velocity (fun i n g => psi 1 i n g - psi' 1 i n g) (fun i n g => psi 0 i n g - psi' 0 i n g)
        - 3 * vdot p velocity (fun i n g => psi 0 i n g - psi' 0 i n g) (fun i n g => psi 0 i n g - psi' 0 i n g)
        + vdot p velocity (fun i n g => psi 1 i n g - psi' 1 i n g - (timeDiff true 0 (fun j i n g => psi j i n g - psi' j i n g) i n g))
          (fun i n g => psi 1 i n g - psi' 1 i n g - (timeDiff true 0 (fun j i n g => psi j i n g - psi' j i n g) i n g))
        + vdot p velocity (fun i n g => timeDiff true 0 (fun j i n g => psi j i n g - psi' j i n g) i n g)
          (fun i n g => timeDiff true 0 (fun j i n g => psi j i n g - psi' j i n g) i n g) := by
    unfold bdfEnergy
    simp only [vdot_eq]
    rw [mul_sum, mul_sum, ← sum_add_distrib, ← sum_sub_distrib, ← sum_add_distrib, ← sum_add_distrib]
    refine sum_congr rfl fun x _ => ?_
    simp only [timeDiff, ne_eq, not_true_eq_false, and_false, if_false]
    ring
  have h1 := vdot_self_nonneg hw fun i n g => timeDiff true 0 (fun j i n g => psi j i n g - psi' j i n g) i n g
  have h2 := vdot_self_nonneg hw fun i n g => psi 1 i n g - psi' 1 i n g - (timeDiff true 0 (fun j i n g => psi j i n g - psi' j i n g) i n g)
  linarith

/-- C148 (BDF2): the difference of two runs stays within a factor `3` (in the square) of the initial difference. -/
theorem C148_bdf2 {p : Problem K} {sigma : ℕ → ℕ → K} {xs : ℕ → ℕ → ℕ → K} {velocity : ℕ → K}
    {external boundary : TimeArr K} {dt : K} {steps : ℕ}
    (hok : TimedOk p sigma velocity dt) (hw : Weighted p velocity)
    (hsum : ∑ n ∈ range p.angles, p.angleW n = 1)
    (hev : EvenReflection p.angles p.angleX p.angleW p.bcL p.bcR) (hdis : Dissipative p sigma xs)
    {psi psi' : ℕ → ℕ → ℕ → ℕ → K}
    (h : FullyImplicit true p sigma xs velocity external boundary dt steps psi)
    (h' : FullyImplicit true p sigma xs velocity external boundary dt steps psi') (j : ℕ) (hj : j ≤ steps) :
    vdot p velocity (fun i n g => psi j i n g - psi' j i n g) (fun i n g => psi j i n g - psi' j i n g)
      ≤ 3 * vdot p velocity (fun i n g => psi 0 i n g - psi' 0 i n g) (fun i n g => psi 0 i n g - psi' 0 i n g) := by
  have main : ∀ k, k < steps →
      bdfEnergy p velocity (fun i n g => psi (k + 1) i n g - psi' (k + 1) i n g)
          (fun i n g => psi k i n g - psi' k i n g)
        ≤ 3 * vdot p velocity (fun i n g => psi 0 i n g - psi' 0 i n g) (fun i n g => psi 0 i n g - psi' 0 i n g) := by
    intro k
    induction k with
    | zero => exact fun hk => C148_bdf2_first hok hw hsum hev hdis h h' hk
    | succ k ih =>
      intro hk
      have key := step_energy hok hw hsum hev hdis h (k + 1) hk (E := psi')
        (D := fun k i n g => timeDiff true (k - 1) psi' i n g / dt) (implicit_transport h' (k + 1) hk)
      have hz : vdot p velocity (fun i n g => (fun k i n g => timeDiff true (k - 1) psi' i n g / dt) (k + 1 + 1) i n g
          - timeDiff true (k + 1) psi' i n g / dt) (fun i n g => psi (k + 1 + 1) i n g - psi' (k + 1 + 1) i n g) = 0 := by
        rw [vdot_eq]
        exact sum_eq_zero fun x _ => by simp
      rw [hz, mul_zero] at key
      have hs := bdf_energy_step hw (dt := dt) (s := fun _ _ _ => 0)
        (older := fun i n g => psi k i n g - psi' k i n g) (old := fun i n g => psi (k + 1) i n g - psi' (k + 1) i n g)
        (new := fun i n g => psi (k + 1 + 1) i n g - psi' (k + 1 + 1) i n g) (by
          have hz' : vdot p velocity (fun _ _ _ => 0)
              (fun i n g => psi (k + 1 + 1) i n g - psi' (k + 1 + 1) i n g) = 0 := by
            rw [vdot_eq]
            exact sum_eq_zero fun x _ => by simp
          rw [hz', mul_zero]
          simpa [timeDiff] using key)
      have hz' : vdot p velocity (fun _ _ _ => 0)
          (fun i n g => psi (k + 1 + 1) i n g - psi' (k + 1 + 1) i n g) = 0 := by
        rw [vdot_eq]
        exact sum_eq_zero fun x _ => by simp
      rw [hz', mul_zero, add_zero] at hs
      exact hs.trans (ih (by omega))
  rcases j with _ | k
  · have := vdot_self_nonneg hw fun i n g => psi 0 i n g - psi' 0 i n g
    linarith
  · refine le_trans ?_ (main k (by omega))
    exact le_add_of_nonneg_right (vdot_self_nonneg hw _)

/-! ## C149: errors against a solution of the semi-discrete equation -/

/-- C149 (backward Euler): errors add up, nothing is amplified. -/
theorem C149_backward_euler {p : Problem K} {sigma : ℕ → ℕ → K} {xs : ℕ → ℕ → ℕ → K} {velocity : ℕ → K}
    {external boundary : TimeArr K} {dt : K} {steps : ℕ}
    (hok : TimedOk p sigma velocity dt) (hw : Weighted p velocity)
    (hsum : ∑ n ∈ range p.angles, p.angleW n = 1)
    (hev : EvenReflection p.angles p.angleX p.angleW p.bcL p.bcR) (hdis : Dissipative p sigma xs)
    {psi E D : ℕ → ℕ → ℕ → ℕ → K} {R T : K} (hR : 0 ≤ R) (hT : 0 ≤ T)
    (h : FullyImplicit false p sigma xs velocity external boundary dt steps psi)
    (hE : ∀ j < steps, TransportAt p sigma xs velocity (entry external j) (entry boundary j) (E (j + 1)) (D (j + 1)))
    (h0 : vdot p velocity (fun i n g => psi 0 i n g - E 0 i n g) (fun i n g => psi 0 i n g - E 0 i n g) ≤ R ^ 2)
    (ht : ∀ j < steps, vdot p velocity (fun i n g => D (j + 1) i n g - (E (j + 1) i n g - E j i n g) / dt)
      (fun i n g => D (j + 1) i n g - (E (j + 1) i n g - E j i n g) / dt) ≤ T ^ 2) (j : ℕ) (hj : j ≤ steps) :
    vdot p velocity (fun i n g => psi j i n g - E j i n g) (fun i n g => psi j i n g - E j i n g)
      ≤ (R + (j : K) * dt * T) ^ 2 := by
  induction j with
  | zero => simpa using h0
  | succ j ih =>
    have key := step_energy hok hw hsum hev hdis h j hj (hE j hj)
    have hd : (0 : K) ≤ (j : K) * dt * T := mul_nonneg (mul_nonneg (Nat.cast_nonneg j) hok.dt.le) hT
    refine (euler_energy_step hw hok.dt.le (add_nonneg hR hd) hT (by simpa [timeDiff] using key) (ih (by omega))
      (ht j hj)).trans (le_of_eq ?_)
    push_cast
    ring

/-- C149 (BDF2): `T1` bounds the truncation error of the first step, `T2` of the others. -/
theorem C149_bdf2 {p : Problem K} {sigma : ℕ → ℕ → K} {xs : ℕ → ℕ → ℕ → K} {velocity : ℕ → K}
    {external boundary : TimeArr K} {dt : K} {steps : ℕ}
    (hok : TimedOk p sigma velocity dt) (hw : Weighted p velocity)
    (hsum : ∑ n ∈ range p.angles, p.angleW n = 1)
    (hev : EvenReflection p.angles p.angleX p.angleW p.bcL p.bcR) (hdis : Dissipative p sigma xs)
    {psi E D : ℕ → ℕ → ℕ → ℕ → K} {R T1 T2 : K} (hR : 0 ≤ R) (hT1 : 0 ≤ T1) (hT2 : 0 ≤ T2)
    (h : FullyImplicit true p sigma xs velocity external boundary dt steps psi)
    (hE : ∀ j < steps, TransportAt p sigma xs velocity (entry external j) (entry boundary j) (E (j + 1)) (D (j + 1)))
    (h0 : vdot p velocity (fun i n g => psi 0 i n g - E 0 i n g) (fun i n g => psi 0 i n g - E 0 i n g) ≤ R ^ 2)
    (ht1 : 0 < steps → vdot p velocity (fun i n g => D 1 i n g - (E 1 i n g - E 0 i n g) / dt)
      (fun i n g => D 1 i n g - (E 1 i n g - E 0 i n g) / dt) ≤ T1 ^ 2)
    (ht2 : ∀ j, j + 1 < steps →
      vdot p velocity
        (fun i n g => D (j + 2) i n g - (3 / 2 * E (j + 2) i n g - 2 * E (j + 1) i n g + 1 / 2 * E j i n g) / dt)
        (fun i n g => D (j + 2) i n g - (3 / 2 * E (j + 2) i n g - 2 * E (j + 1) i n g + 1 / 2 * E j i n g) / dt)
        ≤ T2 ^ 2) (j : ℕ) (hj : j < steps) :
    vdot p velocity (fun i n g => psi (j + 1) i n g - E (j + 1) i n g)
        (fun i n g => psi (j + 1) i n g - E (j + 1) i n g)
      ≤ (4 * R + 3 * dt * T1 + 4 * ((j : K) * dt) * T2) ^ 2 := by
  have hdt := hok.dt.le
  have main : ∀ k, k < steps →
      bdfEnergy p velocity (fun i n g => psi (k + 1) i n g - E (k + 1) i n g)
          (fun i n g => psi k i n g - E k i n g)
        ≤ (4 * R + 3 * dt * T1 + 4 * ((k : K) * dt) * T2) ^ 2 := by
    intro k
    induction k with
    | zero =>
      intro hk
      have key := step_energy hok hw hsum hev hdis h 0 hk (hE 0 hk)
      have h1 := euler_energy_step hw hdt hR hT1 (by simpa [timeDiff] using key) h0 (ht1 hk)
      have h2 : vdot p velocity (fun i n g => 2 * (psi 1 i n g - E 1 i n g)) (fun i n g => 2 * (psi 1 i n g - E 1 i n g))
          ≤ (2 * (R + dt * T1)) ^ 2 := by
        rw [vdot_smul (2 : K), mul_pow]
        exact mul_le_mul_of_nonneg_left h1 (by norm_num)
      have h3 : vdot p velocity (fun i n g => -1 * (psi 0 i n g - E 0 i n g)) (fun i n g => -1 * (psi 0 i n g - E 0 i n g))
          ≤ R ^ 2 := by
        rw [vdot_smul (-1 : K)]
        simpa using h0
      have hB : (0 : K) ≤ 2 * (R + dt * T1) := by positivity
      have h4 := vdot_minkowski hw hB hR h2 h3
      have e : vdot p velocity (fun i n g => 2 * (psi 1 i n g - E 1 i n g) + -1 * (psi 0 i n g - E 0 i n g))
            (fun i n g => 2 * (psi 1 i n g - E 1 i n g) + -1 * (psi 0 i n g - E 0 i n g))
          = vdot p velocity (fun i n g => 2 * (psi 1 i n g - E 1 i n g) - (psi 0 i n g - E 0 i n g))
            (fun i n g => 2 * (psi 1 i n g - E 1 i n g) - (psi 0 i n g - E 0 i n g)) :=
        vdot_congr (fun _ _ _ _ _ _ => by ring) (fun _ _ _ _ _ _ => by ring)
      rw [e] at h4
      unfold bdfEnergy
      have hT : 0 ≤ dt * T1 := mul_nonneg hdt hT1
      refine (add_le_add h1 h4).trans ?_
      push_cast
      nlinarith [mul_nonneg hR hR, mul_nonneg hR hT, mul_nonneg hT hT]
    | succ k ih =>
      intro hk
      have key := step_energy hok hw hsum hev hdis h (k + 1) hk (hE (k + 1) hk)
      have hk0 : (0 : K) ≤ k := Nat.cast_nonneg k
      refine (bdf_energy_growth hw hdt (R := 4 * R + 3 * dt * T1 + 4 * ((k : K) * dt) * T2) (by positivity) hT2
        (older := fun i n g => psi k i n g - E k i n g) (old := fun i n g => psi (k + 1) i n g - E (k + 1) i n g)
        (new := fun i n g => psi (k + 1 + 1) i n g - E (k + 1 + 1) i n g)
        (by simpa [timeDiff] using key) (ih (by omega)) (ht2 k hk)).trans (le_of_eq ?_)
      push_cast
      ring
  refine le_trans ?_ (main j hj)
  exact le_add_of_nonneg_right (vdot_self_nonneg hw _)

/-! ## The drivers -/

/-- What the drivers need: physical data, normalised non-negative quadrature, mirror directions of equal weight
at reflecting boundaries, no multiplication. -/
structure PassiveMedium (p : Problem K) (sigma : ℕ → ℕ → K) (xs : ℕ → ℕ → ℕ → K) (velocity : ℕ → K) (dt : K) : Prop where
  timed : TimedOk p sigma velocity dt
  weights : ∀ n < p.angles, 0 ≤ p.angleW n
  norm : ∑ n ∈ range p.angles, p.angleW n = 1
  even : EvenReflection p.angles p.angleX p.angleW p.bcL p.bcR
  dissipative : Dissipative p sigma xs

theorem PassiveMedium.weighted {p : Problem K} {sigma : ℕ → ℕ → K} {xs : ℕ → ℕ → ℕ → K} {velocity : ℕ → K} {dt : K}
    (h : PassiveMedium p sigma xs velocity dt) (hG : 0 < p.groups) : Weighted p velocity :=
  ⟨h.weights, fun i hi => ((h.timed.ok 0 hG).phys i hi).1, h.timed.velocity⟩

/-- A driver run whose steps are solved exactly, as a fully implicit sequence. -/
theorem timed_downscatter (second : Bool) (p : Problem K) (xsTotal : ℕ → ℕ → K)
    (scatter : ℕ → ℕ → ℕ → K) (fission : Fission K) (velocity : ℕ → K)
    (external boundary : TimeArr K) (steps : ℕ) (dt : K)
    (init : ℕ → ℕ → ℕ → K) (hok : TimedOk p xsTotal velocity dt) (hG : 0 < p.groups)
    (hext : Covers external steps) (hbnd : Covers boundary steps)
    (hdown : ∀ m g g', g ≤ g' → scatter m g g' + fissionMatrix fission m g g' = 0) :
    ∃ (out : ℕ → ℕ → ℕ → K) (psi : ℕ → ℕ → ℕ → ℕ → K),
      (if second then bdf2 p xsTotal (.iso scatter) fission velocity external boundary steps dt init
        else backwardEuler p xsTotal (.iso scatter) fission velocity external boundary steps dt init)
        = .ok out ∧ psi 0 = init ∧
      FullyImplicit second p xsTotal (fun m g g' => scatter m g g' + fissionMatrix fission m g g') velocity
        external boundary dt steps psi ∧
      ∀ j < steps, ∀ i < p.cells, ∀ g < p.groups, out j i g = quadrature p (psi (j + 1)) i g := by
  obtain ⟨out, psi, h1, h2, h3, h4, h5⟩ := timed_steps second p xsTotal scatter fission velocity external boundary
    steps dt init hok hG hext hbnd
  have hokV := fun j => xsStar_ok hok (timeCoef_nonneg (K := K) second j)
  have hsol := fun j (hj : j < steps) => h5 j hj (downscatter_outputs (hokV j) hdown (h4 j hj))
  exact ⟨out, psi, h1, h2, fun j hj => implicit_congr (h3 j hj) (fun i hi g hg => (hsol j hj i hi g hg).symm) rfl,
    hsol⟩

theorem scalarSquare_sub_le {p : Problem K} {velocity : ℕ → K} (h : Weighted p velocity)
    (hsum : ∑ n ∈ range p.angles, p.angleW n = 1) {a b : ℕ → ℕ → ℕ → K} {f f' : ℕ → ℕ → K}
    (ha : ∀ i < p.cells, ∀ g < p.groups, f i g = quadrature p a i g)
    (hb : ∀ i < p.cells, ∀ g < p.groups, f' i g = quadrature p b i g) :
    scalarSquare p velocity (fun i g => f i g - f' i g)
      ≤ vdot p velocity (fun i n g => a i n g - b i n g) (fun i n g => a i n g - b i n g) := by
  refine le_trans (le_of_eq (scalarSquare_congr fun i hi g hg => ?_)) (scalarSquare_le h hsum _)
  rw [ha i hi g hg, hb i hi g hg]
  unfold quadrature
  rw [← sum_sub_distrib]
  exact sum_congr rfl fun _ _ => by ring

/-- C148 for the drivers: two runs from different initial fluxes, with the same sources.  No condition on the
cell widths or on the time step. -/
theorem C148_drivers (second : Bool) (p : Problem K) (xsTotal : ℕ → ℕ → K) (scatter : ℕ → ℕ → ℕ → K)
    (fission : Fission K) (velocity : ℕ → K) (external boundary : TimeArr K) (steps : ℕ) (dt : K)
    (init init' : ℕ → ℕ → ℕ → K)
    (hp : PassiveMedium p xsTotal (fun m g g' => scatter m g g' + fissionMatrix fission m g g') velocity dt)
    (hG : 0 < p.groups) (hext : Covers external steps) (hbnd : Covers boundary steps)
    (hdown : ∀ m g g', g ≤ g' → scatter m g g' + fissionMatrix fission m g g' = 0) :
    ∃ out out' : ℕ → ℕ → ℕ → K,
      (if second then bdf2 p xsTotal (.iso scatter) fission velocity external boundary steps dt init
        else backwardEuler p xsTotal (.iso scatter) fission velocity external boundary steps dt init) = .ok out ∧
      (if second then bdf2 p xsTotal (.iso scatter) fission velocity external boundary steps dt init'
        else backwardEuler p xsTotal (.iso scatter) fission velocity external boundary steps dt init') = .ok out' ∧
      ∀ j < steps, scalarSquare p velocity (fun i g => out j i g - out' j i g)
        ≤ (if second then 3 else 1) * vdot p velocity (fun i n g => init i n g - init' i n g)
          (fun i n g => init i n g - init' i n g) := by
  obtain ⟨out, psi, h1, h2, h3, h4⟩ := timed_downscatter second p xsTotal scatter fission velocity external boundary
    steps dt init hp.timed hG hext hbnd hdown
  obtain ⟨out', psi', h1', h2', h3', h4'⟩ := timed_downscatter second p xsTotal scatter fission velocity external
    boundary steps dt init' hp.timed hG hext hbnd hdown
  have hw := hp.weighted hG
  refine ⟨out, out', h1, h1', fun j hj => (scalarSquare_sub_le hw hp.norm (h4 j hj) (h4' j hj)).trans ?_⟩
  subst h2 h2'
  cases second with
  | false =>
    simp only [Bool.false_eq_true, if_false, one_mul]
    have : ∀ k ≤ steps, vdot p velocity (fun i n g => psi k i n g - psi' k i n g) (fun i n g => psi k i n g - psi' k i n g)
        ≤ vdot p velocity (fun i n g => psi 0 i n g - psi' 0 i n g) (fun i n g => psi 0 i n g - psi' 0 i n g) := by
      intro k
      induction k with
      | zero => exact fun _ => le_rfl
      | succ k ih =>
        intro hk
        exact (C148_backward_euler hp.timed hw hp.norm hp.even hp.dissipative h3 h3' k hk).trans (ih (by omega))
    exact this (j + 1) hj
  | true =>
    simp only [if_true]
    exact C148_bdf2 hp.timed hw hp.norm hp.even hp.dissipative h3 h3' (j + 1) hj

/-! ## Orders of accuracy -/

/-- Repeated integration of a bound. -/
theorem growth_bound {g g' : ℝ → ℝ} {c H : ℝ} {k : ℕ} (h0 : g 0 = 0)
    (hd : ∀ s, 0 ≤ s → s ≤ H → HasDerivAt g (g' s) s)
    (hb : ∀ s, 0 ≤ s → s ≤ H → |g' s| ≤ c * s ^ k) {s : ℝ} (hs0 : 0 ≤ s) (hs : s ≤ H) :
    |g s| ≤ c * s ^ (k + 1) / (k + 1) := by
  have hB : ∀ x : ℝ, HasDerivAt (fun x : ℝ => c * x ^ (k + 1) / (k + 1)) (c * x ^ k) x := by
    intro x
    have h1 := (((hasDerivAt_pow (k + 1) x).const_mul c).div_const ((k : ℝ) + 1))
    have hk : (k : ℝ) + 1 ≠ 0 := by positivity
    refine h1.congr_deriv ?_
    rw [Nat.add_sub_cancel]
    push_cast
    field_simp
  have := image_norm_le_of_norm_deriv_right_le_deriv_boundary (f := g) (f' := g') (a := 0) (b := H)
    (B := fun x : ℝ => c * x ^ (k + 1) / (k + 1)) (B' := fun x => c * x ^ k)
    (fun x hx => (hd x hx.1 hx.2).continuousAt.continuousWithinAt)
    (fun x hx => (hd x hx.1 hx.2.le).hasDerivWithinAt) (by simp [h0]) hB
    (fun x hx => hb x hx.1 hx.2.le) ⟨hs0, hs⟩
  simpa using this

/-- Backward difference: `F` with derivative of Lipschitz constant `L`. -/
theorem euler_truncation {F F' : ℝ → ℝ} {L a h : ℝ} (hh : 0 < h)
    (hF : ∀ t, a - h ≤ t → t ≤ a → HasDerivAt F (F' t) t)
    (hF' : ∀ t, a - h ≤ t → t ≤ a → |F' a - F' t| ≤ L * (a - t)) :
    |F' a - (F a - F (a - h)) / h| ≤ L * h / 2 := by
  have key := growth_bound (g := fun s => F (a - s) - F a + s * F' a) (g' := fun s => F' a - F' (a - s)) (c := L)
    (H := h) (k := 1) (by simp) (fun s h0 h1 => by
      have h2 := (hF (a - s) (by linarith) (by linarith)).scomp s ((hasDerivAt_id s).const_sub a)
      have h3 := (h2.sub_const (F a)).add ((hasDerivAt_id s).mul_const (F' a))
      refine h3.congr_deriv ?_
      simp
      ring)
    (fun s h0 h1 => by simpa using hF' (a - s) (by linarith) (by linarith)) hh.le le_rfl
  have e : F' a - (F a - F (a - h)) / h = (F (a - h) - F a + h * F' a) / h := by field_simp; ring
  rw [e, abs_div, abs_of_pos hh, div_le_iff₀ hh]
  refine key.trans (le_of_eq ?_)
  norm_num
  ring

/-- BDF2 difference: `F` with second derivative of Lipschitz constant `L`. -/
theorem bdf2_truncation {F F' F'' : ℝ → ℝ} {L a h : ℝ} (hh : 0 < h)
    (hF : ∀ t, a - 2 * h ≤ t → t ≤ a → HasDerivAt F (F' t) t)
    (hF' : ∀ t, a - 2 * h ≤ t → t ≤ a → HasDerivAt F' (F'' t) t)
    (hF'' : ∀ t, a - 2 * h ≤ t → t ≤ a → |F'' t - F'' a| ≤ L * (a - t)) :
    |F' a - (3 / 2 * F a - 2 * F (a - h) + 1 / 2 * F (a - 2 * h)) / h| ≤ L * h ^ 2 := by
  have h1 : ∀ s, 0 ≤ s → s ≤ 2 * h → |F' a - F' (a - s) - s * F'' a| ≤ L / 2 * s ^ 2 := by
    intro s hs0 hs
    have key := growth_bound (g := fun s => F' a - F' (a - s) - s * F'' a) (g' := fun s => F'' (a - s) - F'' a)
      (c := L) (H := 2 * h) (k := 1) (by simp) (fun s h0 h1 => by
        have h2 := (hF' (a - s) (by linarith) (by linarith)).scomp s ((hasDerivAt_id s).const_sub a)
        have h3 := (h2.const_sub (F' a)).sub ((hasDerivAt_id s).mul_const (F'' a))
        refine h3.congr_deriv ?_
        simp)
      (fun s h0 h1 => by simpa using hF'' (a - s) (by linarith) (by linarith)) hs0 hs
    refine key.trans (le_of_eq ?_)
    norm_num
    ring
  have h2 : ∀ s, 0 ≤ s → s ≤ 2 * h → |F (a - s) - F a + s * F' a - s ^ 2 / 2 * F'' a| ≤ L / 2 * s ^ 3 / 3 := by
    intro s hs0 hs
    have key := growth_bound (g := fun s => F (a - s) - F a + s * F' a - s ^ 2 / 2 * F'' a)
      (g' := fun s => F' a - F' (a - s) - s * F'' a)
      (c := L / 2) (H := 2 * h) (k := 2) (by simp) (fun s h0 h1 => by
        have h2 := (hF (a - s) (by linarith) (by linarith)).scomp s ((hasDerivAt_id s).const_sub a)
        have h3 := ((h2.sub_const (F a)).add ((hasDerivAt_id s).mul_const (F' a))).sub
          (((hasDerivAt_pow 2 s).div_const 2).mul_const (F'' a))
        refine h3.congr_deriv ?_
        simp
        ring)
      (fun s h0 h1' => by simpa using h1 s h0 h1') hs0 hs
    refine key.trans (le_of_eq ?_)
    norm_num
  have r1 := h2 h hh.le (by linarith)
  have r0 := h2 (2 * h) (by linarith) le_rfl
  have e : F' a - (3 / 2 * F a - 2 * F (a - h) + 1 / 2 * F (a - 2 * h)) / h
      = (2 * (F (a - h) - F a + h * F' a - h ^ 2 / 2 * F'' a)
        - 1 / 2 * (F (a - 2 * h) - F a + 2 * h * F' a - (2 * h) ^ 2 / 2 * F'' a)) / h := by field_simp; ring
  rw [e, abs_div, abs_of_pos hh, div_le_iff₀ hh]
  rw [abs_le] at r0 r1 ⊢
  constructor <;> nlinarith [r0.1, r0.2, r1.1, r1.2]

/-- Size of the phase space: `∑ 1/v` times the weights times the widths. -/
def phaseVolume (p : Problem K) (velocity : ℕ → K) : K := vdot p velocity (fun _ _ _ => 1) (fun _ _ _ => 1)

theorem vdot_le_volume {p : Problem K} {velocity : ℕ → K} (hw : Weighted p velocity) {a : ℕ → ℕ → ℕ → K} {b : K}
    (h : ∀ i < p.cells, ∀ n < p.angles, ∀ g < p.groups, |a i n g| ≤ b) :
    vdot p velocity a a ≤ b ^ 2 * phaseVolume p velocity := by
  unfold phaseVolume
  rw [vdot_eq, vdot_eq, mul_sum]
  refine sum_le_sum fun x hx => ?_
  have h1 := hw.nonneg hx
  simp only [mem_product, mem_range] at hx
  have h2 := h _ hx.2.2 _ hx.2.1 _ hx.1
  have h3 : a x.2.2 x.2.1 x.1 * a x.2.2 x.2.1 x.1 ≤ b ^ 2 := by
    rw [← abs_mul_abs_self, ← sq]
    exact pow_le_pow_left₀ (abs_nonneg _) h2 2
  nlinarith [mul_le_mul_of_nonneg_left h3 h1]

/-- Backward Euler is first order (angular flux). -/
theorem first_order_angular (p : Problem ℝ) (xsTotal : ℕ → ℕ → ℝ) (scatter : ℕ → ℕ → ℕ → ℝ)
    (fission : Fission ℝ) (velocity : ℕ → ℝ) (external boundary : TimeArr ℝ) (steps : ℕ) (dt : ℝ)
    (hp : PassiveMedium p xsTotal (fun m g g' => scatter m g g' + fissionMatrix fission m g g') velocity dt)
    (hG : 0 < p.groups)
    (F F' : ℝ → ℕ → ℕ → ℕ → ℝ) (L : ℝ) (hL : 0 ≤ L)
    (hF : ∀ t, 0 ≤ t → t ≤ (steps : ℝ) * dt → ∀ i n g, HasDerivAt (fun s => F s i n g) (F' t i n g) t)
    (hF' : ∀ s t, 0 ≤ s → s ≤ t → t ≤ (steps : ℝ) * dt → ∀ i n g, |F' t i n g - F' s i n g| ≤ L * (t - s))
    (hE : ∀ j < steps, TransportAt p xsTotal (fun m g g' => scatter m g g' + fissionMatrix fission m g g')
      velocity (entry external j) (entry boundary j) (F (((j : ℝ) + 1) * dt)) (F' (((j : ℝ) + 1) * dt)))
    {psi : ℕ → ℕ → ℕ → ℕ → ℝ} (h2 : psi 0 = F 0)
    (h3 : FullyImplicit false p xsTotal (fun m g g' => scatter m g g' + fissionMatrix fission m g g') velocity
      external boundary dt steps psi) (j : ℕ) (hj : j < steps) :
    vdot p velocity (fun i n g => psi (j + 1) i n g - F (((j : ℝ) + 1) * dt) i n g)
        (fun i n g => psi (j + 1) i n g - F (((j : ℝ) + 1) * dt) i n g)
        ≤ (((j : ℝ) + 1) * dt * (L * dt / 2)) ^ 2 * phaseVolume p velocity := by
  have hw := hp.weighted hG
  have hdt := hp.timed.dt
  have hV : 0 ≤ phaseVolume p velocity := vdot_self_nonneg hw _
  have key := C149_backward_euler hp.timed hw hp.norm hp.even hp.dissipative (psi := psi)
    (E := fun j => F ((j : ℝ) * dt)) (D := fun j => F' ((j : ℝ) * dt)) (R := 0)
    (T := L * dt / 2 * Real.sqrt (phaseVolume p velocity)) le_rfl
    (mul_nonneg (by positivity) (Real.sqrt_nonneg _)) h3 (fun j hj => by simpa using hE j hj)
    (by
      rw [h2, vdot_eq]
      simp) (fun j hj => by
      rw [mul_pow, Real.sq_sqrt hV]
      refine vdot_le_volume hw fun i hi n hn g hg => ?_
      have hj' : (j : ℝ) + 1 ≤ steps := by exact_mod_cast hj
      have hj0 : (0 : ℝ) ≤ j := Nat.cast_nonneg j
      have htop : ((j : ℝ) + 1) * dt ≤ (steps : ℝ) * dt := mul_le_mul_of_nonneg_right hj' hdt.le
      have hpos : (0 : ℝ) ≤ (j : ℝ) * dt := mul_nonneg hj0 hdt.le
      have tr := euler_truncation (F := fun s => F s i n g) (F' := fun s => F' s i n g) (L := L)
        (a := ((j : ℝ) + 1) * dt) hdt
        (fun t ht1 ht2 => hF t (by nlinarith) (ht2.trans htop) i n g)
        (fun t ht1 ht2 => hF' t _ (by nlinarith) ht2 htop i n g)
      have e : ((j : ℝ) + 1) * dt - dt = (j : ℝ) * dt := by ring
      rw [e] at tr
      push_cast
      exact tr) (j + 1) hj
  push_cast at key
  refine key.trans (le_of_eq ?_)
  rw [zero_add, ← mul_assoc, mul_pow, Real.sq_sqrt hV]

/-- BDF2 is second order (angular flux). -/
theorem second_order_angular (p : Problem ℝ) (xsTotal : ℕ → ℕ → ℝ) (scatter : ℕ → ℕ → ℕ → ℝ)
    (fission : Fission ℝ) (velocity : ℕ → ℝ) (external boundary : TimeArr ℝ) (steps : ℕ) (dt : ℝ)
    (hp : PassiveMedium p xsTotal (fun m g g' => scatter m g g' + fissionMatrix fission m g g') velocity dt)
    (hG : 0 < p.groups)
    (F F' F'' : ℝ → ℕ → ℕ → ℕ → ℝ) (M L : ℝ) (hM : 0 ≤ M) (hL : 0 ≤ L)
    (hF : ∀ t, 0 ≤ t → t ≤ (steps : ℝ) * dt → ∀ i n g, HasDerivAt (fun s => F s i n g) (F' t i n g) t)
    (hF' : ∀ t, 0 ≤ t → t ≤ (steps : ℝ) * dt → ∀ i n g, HasDerivAt (fun s => F' s i n g) (F'' t i n g) t)
    (hFM : ∀ s t, 0 ≤ s → s ≤ t → t ≤ dt → ∀ i n g, |F' t i n g - F' s i n g| ≤ M * (t - s))
    (hF'' : ∀ s t, 0 ≤ s → s ≤ t → t ≤ (steps : ℝ) * dt → ∀ i n g, |F'' t i n g - F'' s i n g| ≤ L * (t - s))
    (hE : ∀ j < steps, TransportAt p xsTotal (fun m g g' => scatter m g g' + fissionMatrix fission m g g')
      velocity (entry external j) (entry boundary j) (F (((j : ℝ) + 1) * dt)) (F' (((j : ℝ) + 1) * dt)))
    {psi : ℕ → ℕ → ℕ → ℕ → ℝ} (h2 : psi 0 = F 0)
    (h3 : FullyImplicit true p xsTotal (fun m g g' => scatter m g g' + fissionMatrix fission m g g') velocity
      external boundary dt steps psi) (j : ℕ) (hj : j < steps) :
    vdot p velocity (fun i n g => psi (j + 1) i n g - F (((j : ℝ) + 1) * dt) i n g)
        (fun i n g => psi (j + 1) i n g - F (((j : ℝ) + 1) * dt) i n g)
        ≤ ((3 / 2 * M + 4 * ((j : ℝ) * dt) * L) * dt ^ 2) ^ 2 * phaseVolume p velocity := by
  have hw := hp.weighted hG
  have hdt := hp.timed.dt
  have hV : 0 ≤ phaseVolume p velocity := vdot_self_nonneg hw _
  have key := C149_bdf2 hp.timed hw hp.norm hp.even hp.dissipative (psi := psi)
    (E := fun j => F ((j : ℝ) * dt)) (D := fun j => F' ((j : ℝ) * dt)) (R := 0)
    (T1 := M * dt / 2 * Real.sqrt (phaseVolume p velocity))
    (T2 := L * dt ^ 2 * Real.sqrt (phaseVolume p velocity)) le_rfl
    (mul_nonneg (by positivity) (Real.sqrt_nonneg _)) (mul_nonneg (by positivity) (Real.sqrt_nonneg _)) h3
    (fun j hj => by simpa using hE j hj)
    (by
      rw [h2, vdot_eq]
      simp)
    (fun h0 => by
      rw [mul_pow, Real.sq_sqrt hV]
      refine vdot_le_volume hw fun i hi n hn g hg => ?_
      have hs : (1 : ℝ) ≤ steps := by exact_mod_cast h0
      have htop : dt ≤ (steps : ℝ) * dt := by nlinarith
      have tr := euler_truncation (F := fun s => F s i n g) (F' := fun s => F' s i n g) (L := M) (a := dt) hdt
        (fun t ht1 ht2 => hF t (by linarith) (ht2.trans htop) i n g)
        (fun t ht1 ht2 => hFM t _ (by linarith) ht2 le_rfl i n g)
      rw [sub_self] at tr
      simpa using tr)
    (fun j hj => by
      rw [mul_pow, Real.sq_sqrt hV]
      refine vdot_le_volume hw fun i hi n hn g hg => ?_
      have hj' : (j : ℝ) + 2 ≤ steps := by exact_mod_cast hj
      have hj0 : (0 : ℝ) ≤ j := Nat.cast_nonneg j
      have htop : ((j : ℝ) + 2) * dt ≤ (steps : ℝ) * dt := mul_le_mul_of_nonneg_right hj' hdt.le
      have hpos : (0 : ℝ) ≤ (j : ℝ) * dt := mul_nonneg hj0 hdt.le
      have tr := bdf2_truncation (F := fun s => F s i n g) (F' := fun s => F' s i n g) (F'' := fun s => F'' s i n g)
        (L := L) (a := ((j : ℝ) + 2) * dt) hdt
        (fun t ht1 ht2 => hF t (by nlinarith) (ht2.trans htop) i n g)
        (fun t ht1 ht2 => hF' t (by nlinarith) (ht2.trans htop) i n g)
        (fun t ht1 ht2 => by rw [abs_sub_comm]; exact hF'' t _ (by nlinarith) ht2 htop i n g)
      have e1 : ((j : ℝ) + 2) * dt - dt = ((j : ℝ) + 1) * dt := by ring
      have e2 : ((j : ℝ) + 2) * dt - 2 * dt = (j : ℝ) * dt := by ring
      rw [e1, e2] at tr
      push_cast
      exact tr) j hj
  push_cast at key
  refine key.trans (le_of_eq ?_)
  linear_combination ((3 / 2 * M + 4 * ((j : ℝ) * dt) * L) * dt ^ 2) ^ 2 * Real.sq_sqrt hV

/-- C149 (backward Euler driver): first order, on every mesh. -/
theorem C149_first_order (p : Problem ℝ) (xsTotal : ℕ → ℕ → ℝ) (scatter : ℕ → ℕ → ℕ → ℝ)
    (fission : Fission ℝ) (velocity : ℕ → ℝ) (external boundary : TimeArr ℝ) (steps : ℕ) (dt : ℝ)
    (hp : PassiveMedium p xsTotal (fun m g g' => scatter m g g' + fissionMatrix fission m g g') velocity dt)
    (hG : 0 < p.groups) (hext : Covers external steps) (hbnd : Covers boundary steps)
    (hdown : ∀ m g g', g ≤ g' → scatter m g g' + fissionMatrix fission m g g' = 0)
    (F F' : ℝ → ℕ → ℕ → ℕ → ℝ) (L : ℝ) (hL : 0 ≤ L)
    (hF : ∀ t, 0 ≤ t → t ≤ (steps : ℝ) * dt → ∀ i n g, HasDerivAt (fun s => F s i n g) (F' t i n g) t)
    (hF' : ∀ s t, 0 ≤ s → s ≤ t → t ≤ (steps : ℝ) * dt → ∀ i n g, |F' t i n g - F' s i n g| ≤ L * (t - s))
    (hE : ∀ j < steps, TransportAt p xsTotal (fun m g g' => scatter m g g' + fissionMatrix fission m g g')
      velocity (entry external j) (entry boundary j) (F (((j : ℝ) + 1) * dt)) (F' (((j : ℝ) + 1) * dt))) :
    ∃ out : ℕ → ℕ → ℕ → ℝ,
      backwardEuler p xsTotal (.iso scatter) fission velocity external boundary steps dt (F 0) = .ok out ∧
      ∀ j < steps, scalarSquare p velocity (fun i g => out j i g - quadrature p (F (((j : ℝ) + 1) * dt)) i g)
        ≤ (((j : ℝ) + 1) * dt * (L * dt / 2)) ^ 2 * phaseVolume p velocity := by
  obtain ⟨out, psi, h1, h2, h3, h4⟩ := timed_downscatter false p xsTotal scatter fission velocity external boundary
    steps dt (F 0) hp.timed hG hext hbnd hdown
  exact ⟨out, by simpa using h1, fun j hj => (scalarSquare_sub_le (hp.weighted hG) hp.norm (h4 j hj)
    fun _ _ _ _ => rfl).trans (first_order_angular p xsTotal scatter fission velocity external boundary steps dt hp hG
      F F' L hL hF hF' hE h2 h3 j hj)⟩

/-- C149 (BDF2 driver): second order, although the first step is backward Euler. -/
theorem C149_second_order (p : Problem ℝ) (xsTotal : ℕ → ℕ → ℝ) (scatter : ℕ → ℕ → ℕ → ℝ)
    (fission : Fission ℝ) (velocity : ℕ → ℝ) (external boundary : TimeArr ℝ) (steps : ℕ) (dt : ℝ)
    (hp : PassiveMedium p xsTotal (fun m g g' => scatter m g g' + fissionMatrix fission m g g') velocity dt)
    (hG : 0 < p.groups) (hext : Covers external steps) (hbnd : Covers boundary steps)
    (hdown : ∀ m g g', g ≤ g' → scatter m g g' + fissionMatrix fission m g g' = 0)
    (F F' F'' : ℝ → ℕ → ℕ → ℕ → ℝ) (M L : ℝ) (hM : 0 ≤ M) (hL : 0 ≤ L)
    (hF : ∀ t, 0 ≤ t → t ≤ (steps : ℝ) * dt → ∀ i n g, HasDerivAt (fun s => F s i n g) (F' t i n g) t)
    (hF' : ∀ t, 0 ≤ t → t ≤ (steps : ℝ) * dt → ∀ i n g, HasDerivAt (fun s => F' s i n g) (F'' t i n g) t)
    (hFM : ∀ s t, 0 ≤ s → s ≤ t → t ≤ dt → ∀ i n g, |F' t i n g - F' s i n g| ≤ M * (t - s))
    (hF'' : ∀ s t, 0 ≤ s → s ≤ t → t ≤ (steps : ℝ) * dt → ∀ i n g, |F'' t i n g - F'' s i n g| ≤ L * (t - s))
    (hE : ∀ j < steps, TransportAt p xsTotal (fun m g g' => scatter m g g' + fissionMatrix fission m g g')
      velocity (entry external j) (entry boundary j) (F (((j : ℝ) + 1) * dt)) (F' (((j : ℝ) + 1) * dt))) :
    ∃ out : ℕ → ℕ → ℕ → ℝ,
      bdf2 p xsTotal (.iso scatter) fission velocity external boundary steps dt (F 0) = .ok out ∧
      ∀ j < steps, scalarSquare p velocity (fun i g => out j i g - quadrature p (F (((j : ℝ) + 1) * dt)) i g)
        ≤ ((3 / 2 * M + 4 * ((j : ℝ) * dt) * L) * dt ^ 2) ^ 2 * phaseVolume p velocity := by
  obtain ⟨out, psi, h1, h2, h3, h4⟩ := timed_downscatter true p xsTotal scatter fission velocity external boundary
    steps dt (F 0) hp.timed hG hext hbnd hdown
  exact ⟨out, by simpa using h1, fun j hj => (scalarSquare_sub_le (hp.weighted hG) hp.norm (h4 j hj)
    fun _ _ _ _ => rfl).trans (second_order_angular p xsTotal scatter fission velocity external boundary steps dt hp hG
      F F' F'' M L hM hL hF hF' hFM hF'' hE h2 h3 j hj)⟩

/-- A hybrid run on equal grids without self- and up-scatter, as a fully implicit sequence. -/
theorem hybrid_downscatter (second : Bool) (p : Problem K) (xsTotal : ℕ → ℕ → K)
    (scatter : ℕ → ℕ → ℕ → K) (fission : Fission K) (velocity : ℕ → K)
    (external boundary : TimeArr K) (coarse : ℕ → ℕ) (factor : ℕ → K) (steps : ℕ) (dt : K)
    (init : ℕ → ℕ → ℕ → K) (hok : TimedOk p xsTotal velocity dt) (hG : 0 < p.groups)
    (hid : ∀ g < p.groups, coarse g = g ∧ factor g = 1)
    (hext : Covers external steps) (hbnd : Covers boundary steps)
    (hdown : ∀ m g g', g ≤ g' → scatter m g g' + fissionMatrix fission m g g' = 0) :
    ∃ (out : ℕ → ℕ → ℕ → K) (psi : ℕ → ℕ → ℕ → ℕ → K),
      hybridRun second p p xsTotal xsTotal (.iso scatter) (.iso scatter) fission fission velocity
        velocity external boundary coarse factor steps dt init = .ok out ∧ psi 0 = init ∧
      FullyImplicit second p xsTotal (fun m g g' => scatter m g g' + fissionMatrix fission m g g') velocity
        external boundary dt steps psi ∧
      ∀ j < steps, ∀ i < p.cells, ∀ g < p.groups, out j i g = quadrature p (psi (j + 1)) i g := by
  obtain ⟨out, psi, phiC, S, h1, h2, h3, h4, h5⟩ := C37_hybrid_fully_implicit second p xsTotal scatter fission
    velocity external boundary coarse factor steps dt init hok hG hid hext hbnd
  have hokV := fun j => xsStar_ok hok (timeCoef_nonneg (K := K) second j)
  exact ⟨out, psi, h1, h2, h5 fun j hj => downscatter_outputs (hokV j) hdown (h4 j hj),
    fun j hj i _ g _ => h3 j hj i g⟩

/-- C149, hybrid driver with equal grids (backward Euler): first order, on every mesh. -/
theorem C149_hybrid_first_order (p : Problem ℝ) (xsTotal : ℕ → ℕ → ℝ) (scatter : ℕ → ℕ → ℕ → ℝ)
    (fission : Fission ℝ) (velocity : ℕ → ℝ) (external boundary : TimeArr ℝ) (coarse : ℕ → ℕ)
    (factor : ℕ → ℝ) (steps : ℕ) (dt : ℝ)
    (hp : PassiveMedium p xsTotal (fun m g g' => scatter m g g' + fissionMatrix fission m g g') velocity dt)
    (hG : 0 < p.groups) (hid : ∀ g < p.groups, coarse g = g ∧ factor g = 1)
    (hext : Covers external steps) (hbnd : Covers boundary steps)
    (hdown : ∀ m g g', g ≤ g' → scatter m g g' + fissionMatrix fission m g g' = 0)
    (F F' : ℝ → ℕ → ℕ → ℕ → ℝ) (L : ℝ) (hL : 0 ≤ L)
    (hF : ∀ t, 0 ≤ t → t ≤ (steps : ℝ) * dt → ∀ i n g, HasDerivAt (fun s => F s i n g) (F' t i n g) t)
    (hF' : ∀ s t, 0 ≤ s → s ≤ t → t ≤ (steps : ℝ) * dt → ∀ i n g, |F' t i n g - F' s i n g| ≤ L * (t - s))
    (hE : ∀ j < steps, TransportAt p xsTotal (fun m g g' => scatter m g g' + fissionMatrix fission m g g')
      velocity (entry external j) (entry boundary j) (F (((j : ℝ) + 1) * dt)) (F' (((j : ℝ) + 1) * dt))) :
    ∃ out : ℕ → ℕ → ℕ → ℝ,
      hybridRun false p p xsTotal xsTotal (.iso scatter) (.iso scatter) fission fission velocity velocity
        external boundary coarse factor steps dt (F 0) = .ok out ∧
      ∀ j < steps, scalarSquare p velocity (fun i g => out j i g - quadrature p (F (((j : ℝ) + 1) * dt)) i g)
        ≤ (((j : ℝ) + 1) * dt * (L * dt / 2)) ^ 2 * phaseVolume p velocity := by
  obtain ⟨out, psi, h1, h2, h3, h4⟩ := hybrid_downscatter false p xsTotal scatter fission velocity external boundary
    coarse factor steps dt (F 0) hp.timed hG hid hext hbnd hdown
  exact ⟨out, by simpa using h1, fun j hj => (scalarSquare_sub_le (hp.weighted hG) hp.norm (h4 j hj)
    fun _ _ _ _ => rfl).trans (first_order_angular p xsTotal scatter fission velocity external boundary steps dt hp hG
      F F' L hL hF hF' hE h2 h3 j hj)⟩

/-- C149, hybrid driver with equal grids (BDF2): second order, although the first step is backward Euler. -/
theorem C149_hybrid_second_order (p : Problem ℝ) (xsTotal : ℕ → ℕ → ℝ) (scatter : ℕ → ℕ → ℕ → ℝ)
    (fission : Fission ℝ) (velocity : ℕ → ℝ) (external boundary : TimeArr ℝ) (coarse : ℕ → ℕ)
    (factor : ℕ → ℝ) (steps : ℕ) (dt : ℝ)
    (hp : PassiveMedium p xsTotal (fun m g g' => scatter m g g' + fissionMatrix fission m g g') velocity dt)
    (hG : 0 < p.groups) (hid : ∀ g < p.groups, coarse g = g ∧ factor g = 1)
    (hext : Covers external steps) (hbnd : Covers boundary steps)
    (hdown : ∀ m g g', g ≤ g' → scatter m g g' + fissionMatrix fission m g g' = 0)
    (F F' F'' : ℝ → ℕ → ℕ → ℕ → ℝ) (M L : ℝ) (hM : 0 ≤ M) (hL : 0 ≤ L)
    (hF : ∀ t, 0 ≤ t → t ≤ (steps : ℝ) * dt → ∀ i n g, HasDerivAt (fun s => F s i n g) (F' t i n g) t)
    (hF' : ∀ t, 0 ≤ t → t ≤ (steps : ℝ) * dt → ∀ i n g, HasDerivAt (fun s => F' s i n g) (F'' t i n g) t)
    (hFM : ∀ s t, 0 ≤ s → s ≤ t → t ≤ dt → ∀ i n g, |F' t i n g - F' s i n g| ≤ M * (t - s))
    (hF'' : ∀ s t, 0 ≤ s → s ≤ t → t ≤ (steps : ℝ) * dt → ∀ i n g, |F'' t i n g - F'' s i n g| ≤ L * (t - s))
    (hE : ∀ j < steps, TransportAt p xsTotal (fun m g g' => scatter m g g' + fissionMatrix fission m g g')
      velocity (entry external j) (entry boundary j) (F (((j : ℝ) + 1) * dt)) (F' (((j : ℝ) + 1) * dt))) :
    ∃ out : ℕ → ℕ → ℕ → ℝ,
      hybridRun true p p xsTotal xsTotal (.iso scatter) (.iso scatter) fission fission velocity velocity
        external boundary coarse factor steps dt (F 0) = .ok out ∧
      ∀ j < steps, scalarSquare p velocity (fun i g => out j i g - quadrature p (F (((j : ℝ) + 1) * dt)) i g)
        ≤ ((3 / 2 * M + 4 * ((j : ℝ) * dt) * L) * dt ^ 2) ^ 2 * phaseVolume p velocity := by
  obtain ⟨out, psi, h1, h2, h3, h4⟩ := hybrid_downscatter true p xsTotal scatter fission velocity external boundary
    coarse factor steps dt (F 0) hp.timed hG hid hext hbnd hdown
  exact ⟨out, by simpa using h1, fun j hj => (scalarSquare_sub_le (hp.weighted hG) hp.norm (h4 j hj)
    fun _ _ _ _ => rfl).trans (second_order_angular p xsTotal scatter fission velocity external boundary steps dt hp hG
      F F' F'' M L hM hL hF hF' hFM hF'' hE h2 h3 j hj)⟩

/-! ## A concrete case -/

theorem exFlat_passive : PassiveMedium (exFlat K) (fun _ _ => 1)
    (fun m g g' => exFlatXs K m g g' + fissionMatrix (.matrix fun _ _ _ => 0) m g g') (fun _ => 1) (1 / 2) where
  timed := exFlat_timed
  weights := exFlat_tame.weights
  norm := exFlat_tame.norm
  even := EvenReflection.vacuum _ _ _
  dissipative := Dissipative.of_sums fun i _ g hg => by
    have hg : g < 2 := hg
    show ∑ g' ∈ range 2, |exFlatXs K ((exFlat K).mm i) g g' + 0| + ∑ g' ∈ range 2, |exFlatXs K ((exFlat K).mm i) g' g + 0|
      ≤ 2 * 1
    simp only [exFlatXs, sum_range_succ, sum_range_zero]
    interval_cases g <;> norm_num [abs_of_pos]

/-- Two runs, starting from 1 and from an arbitrary flux, with step `1/2`. -/
example (second : Bool) (init : ℕ → ℕ → ℕ → ℚ) := C148_drivers second (exFlat ℚ) (fun _ _ => 1) (exFlatXs ℚ)
  (.matrix fun _ _ _ => 0) (fun _ => 1) ⟨3, fun _ => ⟨1, 1, fun _ _ _ => 1⟩⟩ ⟨3, fun _ => ⟨1, 1, fun _ _ _ => 1⟩⟩ 3
  (1 / 2) (fun _ _ _ => 1) init exFlat_passive (by show 0 < 2; omega) (Or.inr le_rfl) (Or.inr le_rfl) exFlat_down

/-- The field `1 + t^2`, three steps of length `1/2`. -/
example := C149_first_order (exFlat ℝ) (fun _ _ => 1) (exFlatXs ℝ) (.matrix fun _ _ _ => 0)
  (fun _ => 1) ⟨3, fun j => ⟨1, 2, fun _ _ g => 2 * (((j : ℝ) + 1) * (1 / 2)) + (1 + (((j : ℝ) + 1) * (1 / 2)) ^ 2)
    - (if g = 1 then (1 + (((j : ℝ) + 1) * (1 / 2)) ^ 2) / 2 else 0)⟩⟩
  ⟨3, fun j => ⟨1, 1, fun _ _ _ => 1 + (((j : ℝ) + 1) * (1 / 2)) ^ 2⟩⟩ 3 (1 / 2) exFlat_passive
  (by show 0 < 2; omega) (Or.inr le_rfl) (Or.inr le_rfl) exFlat_down
  (fun t _ _ _ => 1 + t ^ 2) (fun t _ _ _ => 2 * t) 2 (by norm_num)
  (fun t _ _ _ _ _ => by simpa using ((hasDerivAt_id t).pow 2).const_add 1)
  (fun s t _ h _ _ _ _ => by rw [← mul_sub, abs_mul, abs_of_pos (by norm_num : (0 : ℝ) < 2),
    abs_of_nonneg (by linarith)])
  (fun j _ => exFlat_transport _ _)

/-- The same field with BDF2: the second derivative is constant, only the first step contributes. -/
example := C149_second_order (exFlat ℝ) (fun _ _ => 1) (exFlatXs ℝ) (.matrix fun _ _ _ => 0)
  (fun _ => 1) ⟨3, fun j => ⟨1, 2, fun _ _ g => 2 * (((j : ℝ) + 1) * (1 / 2)) + (1 + (((j : ℝ) + 1) * (1 / 2)) ^ 2)
    - (if g = 1 then (1 + (((j : ℝ) + 1) * (1 / 2)) ^ 2) / 2 else 0)⟩⟩
  ⟨3, fun j => ⟨1, 1, fun _ _ _ => 1 + (((j : ℝ) + 1) * (1 / 2)) ^ 2⟩⟩ 3 (1 / 2) exFlat_passive
  (by show 0 < 2; omega) (Or.inr le_rfl) (Or.inr le_rfl) exFlat_down
  (fun t _ _ _ => 1 + t ^ 2) (fun t _ _ _ => 2 * t) (fun _ _ _ _ => 2) 2 0 (by norm_num) le_rfl
  (fun t _ _ _ _ _ => by simpa using ((hasDerivAt_id t).pow 2).const_add 1)
  (fun t _ _ _ _ _ => by simpa using (hasDerivAt_id t).const_mul 2)
  (fun s t _ h _ _ _ _ => by rw [← mul_sub, abs_mul, abs_of_pos (by norm_num : (0 : ℝ) < 2),
    abs_of_nonneg (by linarith)])
  (fun s t _ h _ _ _ _ => by simp)
  (fun j _ => exFlat_transport _ _)

/-- Hybrid driver: the field `1 + t^2`, three steps of length `1/2`. -/
example := C149_hybrid_first_order (exFlat ℝ) (fun _ _ => 1) (exFlatXs ℝ) (.matrix fun _ _ _ => 0)
  (fun _ => 1) ⟨3, fun j => ⟨1, 2, fun _ _ g => 2 * (((j : ℝ) + 1) * (1 / 2)) + (1 + (((j : ℝ) + 1) * (1 / 2)) ^ 2)
    - (if g = 1 then (1 + (((j : ℝ) + 1) * (1 / 2)) ^ 2) / 2 else 0)⟩⟩
  ⟨3, fun j => ⟨1, 1, fun _ _ _ => 1 + (((j : ℝ) + 1) * (1 / 2)) ^ 2⟩⟩ id (fun _ => 1) 3 (1 / 2)
  exFlat_passive (by show 0 < 2; omega) (fun _ _ => ⟨rfl, rfl⟩) (Or.inr le_rfl) (Or.inr le_rfl) exFlat_down
  (fun t _ _ _ => 1 + t ^ 2) (fun t _ _ _ => 2 * t) 2 (by norm_num)
  (fun t _ _ _ _ _ => by simpa using ((hasDerivAt_id t).pow 2).const_add 1)
  (fun s t _ h _ _ _ _ => by rw [← mul_sub, abs_mul, abs_of_pos (by norm_num : (0 : ℝ) < 2),
    abs_of_nonneg (by linarith)])
  (fun j _ => exFlat_transport _ _)

/-- Hybrid driver: the same field with BDF2: the second derivative is constant, only the first step contributes. -/
example := C149_hybrid_second_order (exFlat ℝ) (fun _ _ => 1) (exFlatXs ℝ) (.matrix fun _ _ _ => 0)
  (fun _ => 1) ⟨3, fun j => ⟨1, 2, fun _ _ g => 2 * (((j : ℝ) + 1) * (1 / 2)) + (1 + (((j : ℝ) + 1) * (1 / 2)) ^ 2)
    - (if g = 1 then (1 + (((j : ℝ) + 1) * (1 / 2)) ^ 2) / 2 else 0)⟩⟩
  ⟨3, fun j => ⟨1, 1, fun _ _ _ => 1 + (((j : ℝ) + 1) * (1 / 2)) ^ 2⟩⟩ id (fun _ => 1) 3 (1 / 2)
  exFlat_passive (by show 0 < 2; omega) (fun _ _ => ⟨rfl, rfl⟩) (Or.inr le_rfl) (Or.inr le_rfl) exFlat_down
  (fun t _ _ _ => 1 + t ^ 2) (fun t _ _ _ => 2 * t) (fun _ _ _ _ => 2) 2 0 (by norm_num) le_rfl
  (fun t _ _ _ _ _ => by simpa using ((hasDerivAt_id t).pow 2).const_add 1)
  (fun t _ _ _ _ _ => by simpa using (hasDerivAt_id t).const_mul 2)
  (fun s t _ h _ _ _ _ => by rw [← mul_sub, abs_mul, abs_of_pos (by norm_num : (0 : ℝ) < 2),
    abs_of_nonneg (by linarith)])
  (fun s t _ h _ _ _ _ => by simp)
  (fun j _ => exFlat_transport _ _)

end Discrete1.Props
