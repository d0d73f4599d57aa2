import Verif.Props.Uniform
import Verif.Props.SpaceOrder

/-!
# C210: the time-dependent drivers converge to the solution of the transport equation

Space and time together: against a solution of the time-dependent discrete-ordinates equations that is discretised neither
in space nor in time, `backward_euler` is accurate to `O(dt + dx^2)` and `bdf2` to `O(dt^2 + dx^2)` in the mean square, on
every mesh and for every time step.  In a medium that does not multiply the constants grow linearly with the final time,
in an absorbing one they do not grow.
-/

set_option linter.unusedSectionVars false
set_option linter.unusedSimpArgs false

namespace Discrete1.Props

open Finset Discrete1.Spec Discrete1.Slab Discrete1.Tools Discrete1.MultiGroup Discrete1.Drivers

/-- Twice differentiable in every cell (one-sidedly at the edges), with second derivatives at most `zeta`. -/
def SmoothInCells (p : Problem ℝ) (x : ℕ → ℝ) (f : ℕ → ℕ → ℝ → ℝ) (f1 : ℕ → ℕ → ℕ → ℝ → ℝ) (zeta : ℝ) : Prop :=
  ∃ f2 : ℕ → ℕ → ℕ → ℝ → ℝ, ∀ g < p.groups, ∀ n < p.angles, ∀ i < p.cells, ∀ y ∈ Set.Icc (x i) (x i + p.dx i),
    HasDerivWithinAt (f g n) (f1 g n i y) (Set.Icc (x i) (x i + p.dx i)) y ∧
    HasDerivWithinAt (f1 g n i) (f2 g n i y) (Set.Icc (x i) (x i + p.dx i)) y ∧ |f2 g n i y| ≤ zeta

/-- Average of `f` over cell `i`. -/
noncomputable def cellMean (p : Problem ℝ) (x : ℕ → ℝ) (f : ℕ → ℕ → ℝ → ℝ) (i n g : ℕ) : ℝ :=
  (∫ y in x i..x i + p.dx i, f g n y) / p.dx i

/-- Mean of `f` over the two edges of cell `i`. -/
noncomputable def edgeMean (x : ℕ → ℝ) (f : ℕ → ℕ → ℝ → ℝ) (i n g : ℕ) : ℝ := (f g n (x i) + f g n (x (i + 1))) / 2

/-- Angular fluxes `u t g n y` that solve the time-dependent discrete-ordinates equations
`(1/v) du/dt + mu du/dy + sigma u = sum xs sum_m w_m u_m + Q` pointwise at the ends of the time steps, with boundary
values `boundary`, and source data `external` that are the cell averages of `Q`. -/
structure EvolvingSolution (p : Problem ℝ) (x : ℕ → ℝ) (sigma : ℕ → ℕ → ℝ) (xs : ℕ → ℕ → ℕ → ℝ) (velocity : ℕ → ℝ)
    (external boundary : TimeArr ℝ) (dt : ℝ) (steps : ℕ) (Q : ℝ → ℕ → ℕ → ℕ → ℝ → ℝ)
    (u ut : ℝ → ℕ → ℕ → ℝ → ℝ) (u1 : ℝ → ℕ → ℕ → ℕ → ℝ → ℝ) : Prop where
  pde : ∀ j < steps, ContinuousSolution p x sigma xs
    (fun g n i y => Q (((j : ℝ) + 1) * dt) g n i y - ut (((j : ℝ) + 1) * dt) g n y / velocity g) (entry boundary j)
    (u (((j : ℝ) + 1) * dt)) (u1 (((j : ℝ) + 1) * dt))
  rate : ∀ g < p.groups, ∀ n < p.angles, ∀ i ≤ p.cells, ∀ t, 0 ≤ t → t ≤ (steps : ℝ) * dt →
    HasDerivAt (fun s => u s g n (x i)) (ut t g n (x i)) t
  integrable : ∀ j < steps, ∀ g < p.groups, ∀ n < p.angles, ∀ i < p.cells,
    IntervalIntegrable (Q (((j : ℝ) + 1) * dt) g n i) MeasureTheory.volume (x i) (x i + p.dx i)
  source : ∀ j < steps, ∀ g < p.groups, ∀ n < p.angles, ∀ i < p.cells, sourceAt (entry external j) i n g
    = (∫ y in x i..x i + p.dx i, Q (((j : ℝ) + 1) * dt) g n i y) / p.dx i

theorem mean_deviation {p : Problem ℝ} {x : ℕ → ℝ} (hx : ∀ i < p.cells, x (i + 1) = x i + p.dx i) {d : ℝ}
    (hdx : ∀ i < p.cells, 0 < p.dx i ∧ p.dx i ≤ d) {f : ℕ → ℕ → ℝ → ℝ} {f1 : ℕ → ℕ → ℕ → ℝ → ℝ} {zeta : ℝ}
    (hz : 0 ≤ zeta) (hf : SmoothInCells p x f f1 zeta) {i n g : ℕ} (hi : i < p.cells) (hn : n < p.angles)
    (hg : g < p.groups) : |cellMean p x f i n g - edgeMean x f i n g| ≤ zeta * d ^ 2 / 12 := by
  obtain ⟨f2, hf⟩ := hf
  have h := trapezoid_cell (hdx i hi).1 (fun y hy => (hf g hg n hn i hi y hy).1)
    (fun y hy => (hf g hg n hn i hi y hy).2.1) (fun y hy => (hf g hg n hn i hi y hy).2.2)
  unfold cellMean edgeMean
  rw [hx i hi]
  refine h.trans ?_
  have h1 : p.dx i ^ 2 ≤ d ^ 2 := pow_le_pow_left₀ (hdx i hi).1.le (hdx i hi).2 2
  have := mul_le_mul_of_nonneg_left h1 hz
  linarith

/-- The time derivative that makes the edge means an exact solution of the discrete equations. -/
noncomputable def discreteRate (p : Problem ℝ) (x : ℕ → ℝ) (sigma : ℕ → ℕ → ℝ) (xs : ℕ → ℕ → ℕ → ℝ) (velocity : ℕ → ℝ)
    (ext : Arr3 ℝ) (f : ℕ → ℕ → ℝ → ℝ) (i n g : ℕ) : ℝ :=
  velocity g * (∑ g' ∈ range p.groups, xs (p.mm i) g g' * quadrature p (edgeMean x f) i g' + sourceAt ext i n g
    - p.angleX n * (f g n (x (i + 1)) - f g n (x i)) / p.dx i - sigma (p.mm i) g * edgeMean x f i n g)

theorem edge_transport {p : Problem ℝ} {x : ℕ → ℝ} {sigma : ℕ → ℕ → ℝ} {xs : ℕ → ℕ → ℕ → ℝ} {velocity : ℕ → ℝ}
    {ext bnd : Arr3 ℝ} {f : ℕ → ℕ → ℝ → ℝ} (hv : ∀ g < p.groups, 0 < velocity g)
    (hin : ∀ g < p.groups, SweptInflow p.cells p.angles p.angleX p.bcL p.bcR (fun n => sourceAt bnd 0 n g)
      (fun n => sourceAt bnd 1 n g) (fun n i => f g n (x i))) :
    TransportAt p sigma xs velocity ext bnd (edgeMean x f) (discreteRate p x sigma xs velocity ext f) := by
  refine ⟨fun g n i => f g n (x i), fun g hg => ⟨fun n _ i _ => rfl, fun n _ i _ => ?_, hin g hg⟩⟩
  unfold discreteRate
  beta_reduce
  rw [mul_div_cancel_left₀ _ (hv g hg).ne']
  ring

/-- It differs from the derivative of the edge means by the trapezoidal errors. -/
theorem discreteRate_near {p : Problem ℝ} {x : ℕ → ℝ} {sigma : ℕ → ℕ → ℝ} {xs : ℕ → ℕ → ℕ → ℝ} {velocity : ℕ → ℝ}
    {ext bnd : Arr3 ℝ} {d : ℝ} (hdx : ∀ i < p.cells, 0 < p.dx i ∧ p.dx i ≤ d)
    (hv : ∀ g < p.groups, 0 < velocity g) (hs : ∀ i < p.cells, ∀ g < p.groups, 0 ≤ sigma (p.mm i) g)
    (hw : ∀ n < p.angles, 0 ≤ p.angleW n) (hsum : ∑ n ∈ range p.angles, p.angleW n = 1)
    {Q : ℕ → ℕ → ℕ → ℝ → ℝ} {u ut : ℕ → ℕ → ℝ → ℝ} {u1 v1 : ℕ → ℕ → ℕ → ℝ → ℝ} {zeta zeta' S : ℝ}
    (hz : 0 ≤ zeta) (hz' : 0 ≤ zeta')
    (hS : ∀ i < p.cells, ∀ g < p.groups,
      velocity g * (sigma (p.mm i) g + ∑ g' ∈ range p.groups, |xs (p.mm i) g g'|) ≤ S)
    (hu : ContinuousSolution p x sigma xs (fun g n i y => Q g n i y - ut g n y / velocity g) bnd u u1)
    (hu2 : SmoothInCells p x u u1 zeta) (hut : SmoothInCells p x ut v1 zeta')
    (hQ : ∀ g < p.groups, ∀ n < p.angles, ∀ i < p.cells,
      IntervalIntegrable (Q g n i) MeasureTheory.volume (x i) (x i + p.dx i))
    (hext : ∀ g < p.groups, ∀ n < p.angles, ∀ i < p.cells,
      sourceAt ext i n g = (∫ y in x i..x i + p.dx i, Q g n i y) / p.dx i)
    {i n g : ℕ} (hi : i < p.cells) (hn : n < p.angles) (hg : g < p.groups) :
    |discreteRate p x sigma xs velocity ext u i n g - edgeMean x ut i n g| ≤ (zeta' + S * zeta) * d ^ 2 / 12 := by
  have hbal := hu.balanced (ext := fullArr p fun i n g =>
      (∫ y in x i..x i + p.dx i, (Q g n i y - ut g n y / velocity g)) / p.dx i) (fun i hi => (hdx i hi).1)
    (fun g hg n hn i hi y hy => by
      obtain ⟨u2, hu2⟩ := hu2
      exact (hu2 g hg n hn i hi y hy).2.1.continuousWithinAt)
    (fun g hg n hn i hi => sourceAt_full _ hn hg)
  have hle : x i ≤ x i + p.dx i := by have := (hdx i hi).1; linarith
  have hui : Set.uIcc (x i) (x i + p.dx i) = Set.Icc (x i) (x i + p.dx i) := Set.uIcc_of_le hle
  have hiu : IntervalIntegrable (ut g n) MeasureTheory.volume (x i) (x i + p.dx i) := by
    obtain ⟨v2, hv2⟩ := hut
    refine ContinuousOn.intervalIntegrable ?_
    rw [hui]
    exact fun y hy => (hv2 g hg n hn i hi y hy).1.continuousWithinAt
  have hb := hbal.balance g hg n hn i hi
  rw [show sourceAt (fullArr p fun i n g => (∫ y in x i..x i + p.dx i, (Q g n i y - ut g n y / velocity g)) / p.dx i) i n g
      = (∫ y in x i..x i + p.dx i, (Q g n i y - ut g n y / velocity g)) / p.dx i from sourceAt_full _ hn hg,
    intervalIntegral.integral_sub (hQ g hg n hn i hi) (hiu.div_const _), intervalIntegral.integral_div, sub_div,
    ← hext g hg n hn i hi] at hb
  have hvg := hv g hg
  -- the deviations of the means
  have k := fun n' (hn' : n' < p.angles) g' (hg' : g' < p.groups) =>
    mean_deviation hu.mesh hdx hz hu2 hi hn' hg'
  have k' := mean_deviation hu.mesh hdx hz' hut hi hn hg
  have hquad : ∀ g' < p.groups, |(∑ m ∈ range p.angles, p.angleW m * cellMean p x u i m g')
      - quadrature p (edgeMean x u) i g'| ≤ zeta * d ^ 2 / 12 := by
    intro g' hg'
    unfold quadrature
    rw [← sum_sub_distrib]
    refine (abs_sum_le_sum_abs _ _).trans ?_
    calc ∑ m ∈ range p.angles, |p.angleW m * cellMean p x u i m g' - p.angleW m * edgeMean x u i m g'|
        ≤ ∑ m ∈ range p.angles, p.angleW m * (zeta * d ^ 2 / 12) := sum_le_sum fun m hm => by
          have hm := mem_range.mp hm
          rw [← mul_sub, abs_mul, abs_of_nonneg (hw m hm)]
          exact mul_le_mul_of_nonneg_left (k m hm g' hg') (hw m hm)
      _ = _ := by rw [← sum_mul, hsum, one_mul]
  have e : discreteRate p x sigma xs velocity ext u i n g - edgeMean x ut i n g
      = (cellMean p x ut i n g - edgeMean x ut i n g)
        + velocity g * (sigma (p.mm i) g * (cellMean p x u i n g - edgeMean x u i n g)
          - ∑ g' ∈ range p.groups, xs (p.mm i) g g'
            * ((∑ m ∈ range p.angles, p.angleW m * cellMean p x u i m g') - quadrature p (edgeMean x u) i g')) := by
    have e1 : ∑ g' ∈ range p.groups, xs (p.mm i) g g'
            * ((∑ m ∈ range p.angles, p.angleW m * cellMean p x u i m g') - quadrature p (edgeMean x u) i g')
        = ∑ g' ∈ range p.groups, xs (p.mm i) g g' * (∑ m ∈ range p.angles, p.angleW m * cellMean p x u i m g')
          - ∑ g' ∈ range p.groups, xs (p.mm i) g g' * quadrature p (edgeMean x u) i g' := by
      rw [← sum_sub_distrib]
      exact sum_congr rfl fun _ _ => by ring
    have e2 : (∫ y in x i..x i + p.dx i, ut g n y) / velocity g / p.dx i = cellMean p x ut i n g / velocity g := by
      unfold cellMean
      rw [div_div, div_div, mul_comm]
    rw [e2] at hb
    rw [e1]
    unfold discreteRate
    have hb' : p.angleX n * (u g n (x (i + 1)) - u g n (x i)) / p.dx i + sigma (p.mm i) g * cellMean p x u i n g
        = ∑ g' ∈ range p.groups, xs (p.mm i) g g' * (∑ m ∈ range p.angles, p.angleW m * cellMean p x u i m g')
          + (sourceAt ext i n g - cellMean p x ut i n g / velocity g) := hb
    have e3 : velocity g * (cellMean p x ut i n g / velocity g) = cellMean p x ut i n g := mul_div_cancel₀ _ hvg.ne'
    linear_combination (-velocity g) * hb' + e3
  rw [e]
  have h1 : |sigma (p.mm i) g * (cellMean p x u i n g - edgeMean x u i n g)|
      ≤ sigma (p.mm i) g * (zeta * d ^ 2 / 12) := by
    rw [abs_mul, abs_of_nonneg (hs i hi g hg)]
    exact mul_le_mul_of_nonneg_left (k n hn g hg) (hs i hi g hg)
  have h2 : |∑ g' ∈ range p.groups, xs (p.mm i) g g'
      * ((∑ m ∈ range p.angles, p.angleW m * cellMean p x u i m g') - quadrature p (edgeMean x u) i g')|
      ≤ (∑ g' ∈ range p.groups, |xs (p.mm i) g g'|) * (zeta * d ^ 2 / 12) := by
    refine (abs_sum_le_sum_abs _ _).trans ?_
    rw [sum_mul]
    refine sum_le_sum fun g' hg' => ?_
    rw [abs_mul]
    exact mul_le_mul_of_nonneg_left (hquad g' (mem_range.mp hg')) (abs_nonneg _)
  have h3 := mul_le_mul_of_nonneg_left ((abs_sub _ _).trans (add_le_add h1 h2)) hvg.le
  have hz12 : 0 ≤ zeta * d ^ 2 / 12 := by positivity
  have h4 := mul_le_mul_of_nonneg_right (hS i hi g hg) hz12
  refine (abs_add_le _ _).trans ?_
  rw [abs_mul, abs_of_pos hvg]
  have e5 : (zeta' + S * zeta) * d ^ 2 / 12 = zeta' * d ^ 2 / 12 + S * (zeta * d ^ 2 / 12) := by ring
  rw [e5]
  nlinarith

/-- A smooth solution on a mesh of width at most `d`: second space derivatives of `u` at most `zeta`, of `du/dt` at most
`zeta'`; `S` bounds the collision plus transfer rates. -/
structure SmoothSolution (p : Problem ℝ) (x : ℕ → ℝ) (sigma : ℕ → ℕ → ℝ) (xs : ℕ → ℕ → ℕ → ℝ) (velocity : ℕ → ℝ)
    (external boundary : TimeArr ℝ) (dt : ℝ) (steps : ℕ) (Q : ℝ → ℕ → ℕ → ℕ → ℝ → ℝ)
    (u ut : ℝ → ℕ → ℕ → ℝ → ℝ) (u1 : ℝ → ℕ → ℕ → ℕ → ℝ → ℝ) (d zeta zeta' S : ℝ) : Prop where
  solves : EvolvingSolution p x sigma xs velocity external boundary dt steps Q u ut u1
  widths : ∀ i < p.cells, p.dx i ≤ d
  zeta_nonneg : 0 ≤ zeta
  zeta'_nonneg : 0 ≤ zeta'
  start : SmoothInCells p x (u 0) (u1 0) zeta
  space : ∀ j < steps, SmoothInCells p x (u (((j : ℝ) + 1) * dt)) (u1 (((j : ℝ) + 1) * dt)) zeta
  change : ∀ j < steps, ∃ v1, SmoothInCells p x (ut (((j : ℝ) + 1) * dt)) v1 zeta'
  speed : ∀ i < p.cells, ∀ g < p.groups,
    velocity g * (sigma (p.mm i) g + ∑ g' ∈ range p.groups, |xs (p.mm i) g g'|) ≤ S

section

variable {p : Problem ℝ} {x : ℕ → ℝ} {sigma : ℕ → ℕ → ℝ} {xs : ℕ → ℕ → ℕ → ℝ} {velocity : ℕ → ℝ}
  {external boundary : TimeArr ℝ} {dt : ℝ} {steps : ℕ} {Q : ℝ → ℕ → ℕ → ℕ → ℝ → ℝ}
  {u ut : ℝ → ℕ → ℕ → ℝ → ℝ} {u1 : ℝ → ℕ → ℕ → ℕ → ℝ → ℝ} {d zeta zeta' S : ℝ}

/-- Edge means at the time steps. -/
noncomputable def edgeField (x : ℕ → ℝ) (dt : ℝ) (u : ℝ → ℕ → ℕ → ℝ → ℝ) (j : ℕ) : ℕ → ℕ → ℕ → ℝ :=
  edgeMean x (u ((j : ℝ) * dt))

noncomputable def edgeRate (p : Problem ℝ) (x : ℕ → ℝ) (sigma : ℕ → ℕ → ℝ) (xs : ℕ → ℕ → ℕ → ℝ) (velocity : ℕ → ℝ)
    (external : TimeArr ℝ) (dt : ℝ) (u : ℝ → ℕ → ℕ → ℝ → ℝ) (j : ℕ) : ℕ → ℕ → ℕ → ℝ :=
  discreteRate p x sigma xs velocity (entry external (j - 1)) (u ((j : ℝ) * dt))

theorem edgeField_transport (h : SmoothSolution p x sigma xs velocity external boundary dt steps Q u ut u1 d zeta zeta' S)
    (hv : ∀ g < p.groups, 0 < velocity g) (j : ℕ) (hj : j < steps) :
    TransportAt p sigma xs velocity (entry external j) (entry boundary j) (edgeField x dt u (j + 1))
      (edgeRate p x sigma xs velocity external dt u (j + 1)) := by
  unfold edgeField edgeRate
  rw [Nat.add_sub_cancel, Nat.cast_add_one]
  exact edge_transport hv (h.solves.pde j hj).inflow

/-- The rate of the edge means is the derivative of the solution up to second order in the widths. -/
theorem edgeRate_near (h : SmoothSolution p x sigma xs velocity external boundary dt steps Q u ut u1 d zeta zeta' S)
    (hok : TimedOk p sigma velocity dt) (hw : ∀ n < p.angles, 0 ≤ p.angleW n)
    (hsum : ∑ n ∈ range p.angles, p.angleW n = 1) {j : ℕ} (hj : j < steps) {i n g : ℕ} (hi : i < p.cells)
    (hn : n < p.angles) (hg : g < p.groups) :
    |edgeRate p x sigma xs velocity external dt u (j + 1) i n g - edgeMean x (ut (((j : ℝ) + 1) * dt)) i n g|
      ≤ (zeta' + S * zeta) * d ^ 2 / 12 := by
  unfold edgeRate
  rw [Nat.add_sub_cancel, Nat.cast_add_one]
  obtain ⟨v1, hv1⟩ := h.change j hj
  exact discreteRate_near (fun i hi => ⟨((hok.ok g hg).phys i hi).1, h.widths i hi⟩) hok.velocity
    (fun i hi g hg => ((hok.ok g hg).phys i hi).2) hw hsum h.zeta_nonneg h.zeta'_nonneg h.speed (h.solves.pde j hj)
    (h.space j hj) hv1 (h.solves.integrable j hj) (h.solves.source j hj) hi hn hg

/-- The edge means as functions of time. -/
theorem edge_hasDeriv (h : SmoothSolution p x sigma xs velocity external boundary dt steps Q u ut u1 d zeta zeta' S)
    {i n g : ℕ} (hi : i < p.cells) (hn : n < p.angles) (hg : g < p.groups) {t : ℝ} (h0 : 0 ≤ t)
    (h1 : t ≤ (steps : ℝ) * dt) :
    HasDerivAt (fun s => edgeMean x (u s) i n g) (edgeMean x (ut t) i n g) t := by
  unfold edgeMean
  exact ((h.solves.rate g hg n hn i hi.le t h0 h1).add (h.solves.rate g hg n hn (i + 1) hi t h0 h1)).div_const 2

theorem edge_lipschitz {f : ℝ → ℕ → ℕ → ℝ → ℝ} {L : ℝ} {s t : ℝ} {i n g : ℕ}
    (h1 : |f t g n (x i) - f s g n (x i)| ≤ L * (t - s))
    (h2 : |f t g n (x (i + 1)) - f s g n (x (i + 1))| ≤ L * (t - s)) :
    |edgeMean x (f t) i n g - edgeMean x (f s) i n g| ≤ L * (t - s) := by
  unfold edgeMean
  rw [abs_le] at *
  constructor <;> linarith [h1.1, h1.2, h2.1, h2.2]

/-- Defect of a backward Euler step. -/
theorem euler_defect (h : SmoothSolution p x sigma xs velocity external boundary dt steps Q u ut u1 d zeta zeta' S)
    (hok : TimedOk p sigma velocity dt) (hw : ∀ n < p.angles, 0 ≤ p.angleW n)
    (hsum : ∑ n ∈ range p.angles, p.angleW n = 1) {L : ℝ} {j : ℕ} (hj : j < steps)
    (hL : ∀ g < p.groups, ∀ n < p.angles, ∀ i ≤ p.cells, ∀ s t, 0 ≤ s → s ≤ t → t ≤ ((j : ℝ) + 1) * dt →
      |ut t g n (x i) - ut s g n (x i)| ≤ L * (t - s))
    {i n g : ℕ} (hi : i < p.cells) (hn : n < p.angles) (hg : g < p.groups) :
    |edgeRate p x sigma xs velocity external dt u (j + 1) i n g
      - (edgeField x dt u (j + 1) i n g - edgeField x dt u j i n g) / dt|
      ≤ L * dt / 2 + (zeta' + S * zeta) * d ^ 2 / 12 := by
  have hdt := hok.dt
  have hj' : (j : ℝ) + 1 ≤ steps := by exact_mod_cast hj
  have hj0 : (0 : ℝ) ≤ j := Nat.cast_nonneg j
  have htop : ((j : ℝ) + 1) * dt ≤ (steps : ℝ) * dt := mul_le_mul_of_nonneg_right hj' hdt.le
  have hpos : (0 : ℝ) ≤ (j : ℝ) * dt := mul_nonneg hj0 hdt.le
  have tr := euler_truncation (F := fun s => edgeMean x (u s) i n g) (F' := fun s => edgeMean x (ut s) i n g) (L := L)
    (a := ((j : ℝ) + 1) * dt) hdt
    (fun t ht1 ht2 => edge_hasDeriv h hi hn hg (by nlinarith) (ht2.trans htop))
    (fun t ht1 ht2 => edge_lipschitz (hL g hg n hn i hi.le t _ (by nlinarith) ht2 le_rfl)
      (hL g hg n hn (i + 1) hi t _ (by nlinarith) ht2 le_rfl))
  have e : ((j : ℝ) + 1) * dt - dt = (j : ℝ) * dt := by ring
  rw [e] at tr
  have near := edgeRate_near h hok hw hsum hj hi hn hg
  unfold edgeField
  rw [Nat.cast_add_one]
  rw [abs_le] at *
  constructor <;> linarith [tr.1, tr.2, near.1, near.2]

/-- Defect of a BDF2 step. -/
theorem bdf2_defect (h : SmoothSolution p x sigma xs velocity external boundary dt steps Q u ut u1 d zeta zeta' S)
    (hok : TimedOk p sigma velocity dt) (hw : ∀ n < p.angles, 0 ≤ p.angleW n)
    (hsum : ∑ n ∈ range p.angles, p.angleW n = 1) {L : ℝ} {utt : ℝ → ℕ → ℕ → ℝ → ℝ} {j : ℕ} (hj : j + 1 < steps)
    (htt : ∀ g < p.groups, ∀ n < p.angles, ∀ i ≤ p.cells, ∀ t, 0 ≤ t → t ≤ (steps : ℝ) * dt →
      HasDerivAt (fun s => ut s g n (x i)) (utt t g n (x i)) t)
    (hL : ∀ g < p.groups, ∀ n < p.angles, ∀ i ≤ p.cells, ∀ s t, 0 ≤ s → s ≤ t → t ≤ (steps : ℝ) * dt →
      |utt t g n (x i) - utt s g n (x i)| ≤ L * (t - s))
    {i n g : ℕ} (hi : i < p.cells) (hn : n < p.angles) (hg : g < p.groups) :
    |edgeRate p x sigma xs velocity external dt u (j + 2) i n g
      - (3 / 2 * edgeField x dt u (j + 2) i n g - 2 * edgeField x dt u (j + 1) i n g
        + 1 / 2 * edgeField x dt u j i n g) / dt|
      ≤ L * dt ^ 2 + (zeta' + S * zeta) * d ^ 2 / 12 := by
  have hdt := hok.dt
  have hj' : (j : ℝ) + 2 ≤ steps := by exact_mod_cast hj
  have hj0 : (0 : ℝ) ≤ j := Nat.cast_nonneg j
  have htop : ((j : ℝ) + 2) * dt ≤ (steps : ℝ) * dt := mul_le_mul_of_nonneg_right hj' hdt.le
  have hpos : (0 : ℝ) ≤ (j : ℝ) * dt := mul_nonneg hj0 hdt.le
  have htt' : ∀ t, 0 ≤ t → t ≤ (steps : ℝ) * dt →
      HasDerivAt (fun s => edgeMean x (ut s) i n g) (edgeMean x (utt t) i n g) t := fun t h0 h1 => by
    unfold edgeMean
    exact ((htt g hg n hn i hi.le t h0 h1).add (htt g hg n hn (i + 1) hi t h0 h1)).div_const 2
  have tr := bdf2_truncation (F := fun s => edgeMean x (u s) i n g) (F' := fun s => edgeMean x (ut s) i n g)
    (F'' := fun s => edgeMean x (utt s) i n g) (L := L) (a := ((j : ℝ) + 2) * dt) hdt
    (fun t ht1 ht2 => edge_hasDeriv h hi hn hg (by nlinarith) (ht2.trans htop))
    (fun t ht1 ht2 => htt' t (by nlinarith) (ht2.trans htop))
    (fun t ht1 ht2 => by
      rw [abs_sub_comm]
      exact edge_lipschitz (hL g hg n hn i hi.le t _ (by nlinarith) ht2 htop)
        (hL g hg n hn (i + 1) hi t _ (by nlinarith) ht2 htop))
  have e1 : ((j : ℝ) + 2) * dt - dt = ((j : ℝ) + 1) * dt := by ring
  have e2 : ((j : ℝ) + 2) * dt - 2 * dt = (j : ℝ) * dt := by ring
  rw [e1, e2] at tr
  have near := edgeRate_near h hok hw hsum hj hi hn hg
  have e3 : ((j + 2 : ℕ) : ℝ) = (j : ℝ) + 2 := by push_cast; ring
  have e4 : ((j + 1 : ℕ) : ℝ) + 1 = (j : ℝ) + 2 := by push_cast; ring
  rw [e4] at near
  unfold edgeField
  rw [e3, Nat.cast_add_one]
  have near : |edgeRate p x sigma xs velocity external dt u (j + 2) i n g - edgeMean x (ut (((j : ℝ) + 2) * dt)) i n g|
      ≤ (zeta' + S * zeta) * d ^ 2 / 12 := near
  rw [abs_le] at *
  constructor <;> linarith [tr.1, tr.2, near.1, near.2]

/-- From edge means to cell averages. -/
theorem to_averages (hwt : Weighted p velocity) (hx : ∀ i < p.cells, x (i + 1) = x i + p.dx i)
    (hd : ∀ i < p.cells, p.dx i ≤ d) {f : ℕ → ℕ → ℝ → ℝ} {f1 : ℕ → ℕ → ℕ → ℝ → ℝ} (hz : 0 ≤ zeta)
    (hf : SmoothInCells p x f f1 zeta) {a : ℕ → ℕ → ℕ → ℝ} {B : ℝ} (hB : 0 ≤ B)
    (h : vdot p velocity (fun i n g => a i n g - edgeMean x f i n g) (fun i n g => a i n g - edgeMean x f i n g)
      ≤ B ^ 2 * phaseVolume p velocity) :
    vdot p velocity (fun i n g => a i n g - cellMean p x f i n g) (fun i n g => a i n g - cellMean p x f i n g)
      ≤ (B + zeta * d ^ 2 / 12) ^ 2 * phaseVolume p velocity := by
  have hV : 0 ≤ phaseVolume p velocity := vdot_self_nonneg hwt _
  have h2 := vdot_le_volume (p := p) (velocity := velocity) hwt (b := zeta * d ^ 2 / 12)
    (a := fun i n g => edgeMean x f i n g - cellMean p x f i n g) (fun i hi n hn g hg => by
      rw [abs_sub_comm]
      exact mean_deviation hx (fun i hi => ⟨hwt.widths i hi, hd i hi⟩) hz hf hi hn hg)
  have h3 := vdot_minkowski hwt (R := B * Real.sqrt (phaseVolume p velocity))
    (T := zeta * d ^ 2 / 12 * Real.sqrt (phaseVolume p velocity)) (mul_nonneg hB (Real.sqrt_nonneg _))
    (mul_nonneg (by positivity) (Real.sqrt_nonneg _))
    (a := fun i n g => a i n g - edgeMean x f i n g) (b := fun i n g => edgeMean x f i n g - cellMean p x f i n g)
    (by rw [mul_pow, Real.sq_sqrt hV]; exact h) (by rw [mul_pow, Real.sq_sqrt hV]; exact h2)
  have e : (fun i n g => a i n g - edgeMean x f i n g + (edgeMean x f i n g - cellMean p x f i n g))
      = fun i n g => a i n g - cellMean p x f i n g := by
    funext i n g; ring
  rw [e, ← add_mul, mul_pow, Real.sq_sqrt hV] at h3
  exact h3

/-- Distance of the initial flux to the edge means. -/
theorem start_error (h : SmoothSolution p x sigma xs velocity external boundary dt steps Q u ut u1 d zeta zeta' S)
    (hwt : Weighted p velocity) (hx : ∀ i < p.cells, x (i + 1) = x i + p.dx i) {init : ℕ → ℕ → ℕ → ℝ} {r : ℝ}
    (hr : ∀ i < p.cells, ∀ n < p.angles, ∀ g < p.groups, |init i n g - cellMean p x (u 0) i n g| ≤ r) :
    vdot p velocity (fun i n g => init i n g - edgeField x dt u 0 i n g)
      (fun i n g => init i n g - edgeField x dt u 0 i n g)
      ≤ (r + zeta * d ^ 2 / 12) ^ 2 * phaseVolume p velocity := by
  refine vdot_le_volume hwt fun i hi n hn g hg => ?_
  have h1 := hr i hi n hn g hg
  have h2 := mean_deviation hx (fun i hi => ⟨hwt.widths i hi, h.widths i hi⟩) h.zeta_nonneg h.start hi hn hg
  have e : edgeField x dt u 0 i n g = edgeMean x (u 0) i n g := by unfold edgeField; simp
  rw [e]
  rw [abs_le] at *
  constructor <;> linarith [h1.1, h1.2, h2.1, h2.2]

/-- Backward Euler in an absorbing medium, iterations stopped anywhere: `tau` bounds what they left open. -/
theorem euler_angular {c : ℝ} (hc : 0 < c) (hp : Absorbs p sigma xs velocity dt c) (hG : 0 < p.groups)
    (h : SmoothSolution p x sigma xs velocity external boundary dt steps Q u ut u1 d zeta zeta' S)
    {L r tau : ℝ} (hr0 : 0 ≤ r) (hL0 : 0 ≤ L) (htau : 0 ≤ tau)
    (hL : ∀ g < p.groups, ∀ n < p.angles, ∀ i ≤ p.cells, ∀ s t, 0 ≤ s → s ≤ t → t ≤ (steps : ℝ) * dt →
      |ut t g n (x i) - ut s g n (x i)| ≤ L * (t - s))
    {phi : ℕ → ℕ → ℕ → ℝ} {psi : ℕ → ℕ → ℕ → ℕ → ℝ}
    (hr : ∀ i < p.cells, ∀ n < p.angles, ∀ g < p.groups, |psi 0 i n g - cellMean p x (u 0) i n g| ≤ r)
    (hrun : InexactRun false p sigma xs velocity external boundary dt steps phi psi)
    (hopen : ∀ j < steps, ∀ i < p.cells, ∀ n < p.angles, ∀ g < p.groups,
      |openSource p xs velocity (phi j) (psi (j + 1)) i n g| ≤ tau) (j : ℕ) (hj : j < steps) :
    vdot p velocity (fun i n g => psi (j + 1) i n g - cellMean p x (u (((j : ℝ) + 1) * dt)) i n g)
        (fun i n g => psi (j + 1) i n g - cellMean p x (u (((j : ℝ) + 1) * dt)) i n g)
      ≤ ((r + zeta * d ^ 2 / 12) / (1 + c * dt) ^ (j + 1)
        + (L * dt / 2 + (zeta' + S * zeta) * d ^ 2 / 12 + tau) / c + zeta * d ^ 2 / 12) ^ 2 * phaseVolume p velocity := by
  have hok := hp.whole hc.le
  have hwt := hp.weighted hG
  have hdt : 0 < dt := hp.timed.dt
  have hV : 0 ≤ phaseVolume p velocity := vdot_self_nonneg hwt _
  have hmesh := (h.solves.pde j hj).mesh
  have hz := h.zeta_nonneg
  have hz' := h.zeta'_nonneg
  have hR0 : 0 ≤ r + zeta * d ^ 2 / 12 := by positivity
  obtain ⟨i0, hi0⟩ | hcells : (∃ i, i < p.cells) ∨ p.cells = 0 := by
    rcases Nat.eq_zero_or_pos p.cells with h0 | h0
    · exact Or.inr h0
    · exact Or.inl ⟨0, h0⟩
  · have hS0 : 0 ≤ S := le_trans (mul_nonneg (hok.velocity 0 hG).le
      (add_nonneg ((hok.ok 0 hG).phys i0 hi0).2 (sum_nonneg fun _ _ => abs_nonneg _))) (h.speed i0 hi0 0 hG)
    have hT0 : 0 ≤ L * dt / 2 + (zeta' + S * zeta) * d ^ 2 / 12 + tau := by positivity
    have key := C209_backward_euler hc hp hG (E := edgeField x dt u)
      (D := edgeRate p x sigma xs velocity external dt u)
      (R := (r + zeta * d ^ 2 / 12) * Real.sqrt (phaseVolume p velocity))
      (T := (L * dt / 2 + (zeta' + S * zeta) * d ^ 2 / 12 + tau) * Real.sqrt (phaseVolume p velocity))
      (mul_nonneg hR0 (Real.sqrt_nonneg _)) (mul_nonneg hT0 (Real.sqrt_nonneg _)) hrun
      (fun j hj => edgeField_transport h hok.velocity j hj)
      (by rw [mul_pow, Real.sq_sqrt hV]; exact start_error h hwt hmesh hr)
      (fun j hj => by
        rw [mul_pow, Real.sq_sqrt hV]
        refine vdot_le_volume hwt fun i hi n hn g hg => ?_
        have hj' : ((j : ℝ) + 1) * dt ≤ (steps : ℝ) * dt :=
          mul_le_mul_of_nonneg_right (by exact_mod_cast hj) hdt.le
        have a := euler_defect h hok hp.weights hp.norm (L := L) hj (fun g hg n hn i hi s t h0 h1 h2 =>
          hL g hg n hn i hi s t h0 h1 (h2.trans hj')) hi hn hg
        have b := hopen j hj i hi n hn g hg
        unfold stepDefect timeDiff
        simp only [Bool.false_eq_true, false_and, if_false]
        exact (abs_add_le _ _).trans (add_le_add a b)) (j + 1) hj
    have e : ((r + zeta * d ^ 2 / 12) * Real.sqrt (phaseVolume p velocity) / (1 + c * dt) ^ (j + 1)
        + (L * dt / 2 + (zeta' + S * zeta) * d ^ 2 / 12 + tau) * Real.sqrt (phaseVolume p velocity) / c) ^ 2
        = ((r + zeta * d ^ 2 / 12) / (1 + c * dt) ^ (j + 1)
          + (L * dt / 2 + (zeta' + S * zeta) * d ^ 2 / 12 + tau) / c) ^ 2 * phaseVolume p velocity := by
      generalize (r + zeta * d ^ 2 / 12) = A
      generalize (L * dt / 2 + (zeta' + S * zeta) * d ^ 2 / 12 + tau) = B
      rw [mul_div_right_comm A, mul_div_right_comm B, ← add_mul, mul_pow, Real.sq_sqrt hV]
    rw [e] at key
    refine to_averages hwt hmesh h.widths hz (h.space j hj) (by positivity) ?_
    unfold edgeField at key
    rw [Nat.cast_add_one] at key
    exact key
  · have h0 : ∀ a b : ℕ → ℕ → ℕ → ℝ, vdot p velocity a b = 0 := fun a b => by
      unfold vdot
      simp [hcells]
    rw [h0]
    unfold phaseVolume
    rw [h0]
    simp

/-- The same for BDF2. -/
theorem bdf2_angular {c : ℝ} (hc : 0 < c) (hp : Absorbs p sigma xs velocity dt c) (hG : 0 < p.groups)
    (h : SmoothSolution p x sigma xs velocity external boundary dt steps Q u ut u1 d zeta zeta' S)
    {utt : ℝ → ℕ → ℕ → ℝ → ℝ} {M L r tau : ℝ} (hr0 : 0 ≤ r) (hM0 : 0 ≤ M) (htau : 0 ≤ tau)
    (hM : ∀ g < p.groups, ∀ n < p.angles, ∀ i ≤ p.cells, ∀ s t, 0 ≤ s → s ≤ t → t ≤ dt →
      |ut t g n (x i) - ut s g n (x i)| ≤ M * (t - s))
    (htt : ∀ g < p.groups, ∀ n < p.angles, ∀ i ≤ p.cells, ∀ t, 0 ≤ t → t ≤ (steps : ℝ) * dt →
      HasDerivAt (fun s => ut s g n (x i)) (utt t g n (x i)) t)
    (hL : ∀ g < p.groups, ∀ n < p.angles, ∀ i ≤ p.cells, ∀ s t, 0 ≤ s → s ≤ t → t ≤ (steps : ℝ) * dt →
      |utt t g n (x i) - utt s g n (x i)| ≤ L * (t - s))
    {phi : ℕ → ℕ → ℕ → ℝ} {psi : ℕ → ℕ → ℕ → ℕ → ℝ}
    (hr : ∀ i < p.cells, ∀ n < p.angles, ∀ g < p.groups, |psi 0 i n g - cellMean p x (u 0) i n g| ≤ r)
    (hrun : InexactRun true p sigma xs velocity external boundary dt steps phi psi)
    (hopen : ∀ j < steps, ∀ i < p.cells, ∀ n < p.angles, ∀ g < p.groups,
      |openSource p xs velocity (phi j) (psi (j + 1)) i n g| ≤ tau) (j : ℕ) (hj : j < steps) :
    vdot p velocity (fun i n g => psi (j + 1) i n g - cellMean p x (u (((j : ℝ) + 1) * dt)) i n g)
        (fun i n g => psi (j + 1) i n g - cellMean p x (u (((j : ℝ) + 1) * dt)) i n g)
      ≤ (2 * ((2 * (r + zeta * d ^ 2 / 12) + 3 * dt * (M * dt / 2 + (zeta' + S * zeta) * d ^ 2 / 12 + tau)) ^ 2
            / (1 + c * dt / (9 + c * dt)) ^ j
          + 2 * (9 + c * dt) * (L * dt ^ 2 + (zeta' + S * zeta) * d ^ 2 / 12 + tau) ^ 2 / c ^ 2)
        + 2 * (zeta * d ^ 2 / 12) ^ 2) * phaseVolume p velocity := by
  have hok := hp.whole hc.le
  have hwt := hp.weighted hG
  have hdt : 0 < dt := hp.timed.dt
  have hV : 0 ≤ phaseVolume p velocity := vdot_self_nonneg hwt _
  have hmesh := (h.solves.pde j hj).mesh
  have hz := h.zeta_nonneg
  have hz' := h.zeta'_nonneg
  have hR0 : 0 ≤ r + zeta * d ^ 2 / 12 := by positivity
  obtain ⟨i0, hi0⟩ | hcells : (∃ i, i < p.cells) ∨ p.cells = 0 := by
    rcases Nat.eq_zero_or_pos p.cells with h0 | h0
    · exact Or.inr h0
    · exact Or.inl ⟨0, h0⟩
  · have hS0 : 0 ≤ S := le_trans (mul_nonneg (hok.velocity 0 hG).le
      (add_nonneg ((hok.ok 0 hG).phys i0 hi0).2 (sum_nonneg fun _ _ => abs_nonneg _))) (h.speed i0 hi0 0 hG)
    have hT0 : 0 ≤ M * dt / 2 + (zeta' + S * zeta) * d ^ 2 / 12 + tau := by positivity
    have key := C209_bdf2 hc hp hG (E := edgeField x dt u)
      (D := edgeRate p x sigma xs velocity external dt u)
      (R := (r + zeta * d ^ 2 / 12) * Real.sqrt (phaseVolume p velocity))
      (T1 := (M * dt / 2 + (zeta' + S * zeta) * d ^ 2 / 12 + tau) * Real.sqrt (phaseVolume p velocity))
      (T := (L * dt ^ 2 + (zeta' + S * zeta) * d ^ 2 / 12 + tau) * Real.sqrt (phaseVolume p velocity))
      (mul_nonneg hR0 (Real.sqrt_nonneg _)) (mul_nonneg hT0 (Real.sqrt_nonneg _)) hrun
      (fun j hj => edgeField_transport h hok.velocity j hj)
      (by rw [mul_pow, Real.sq_sqrt hV]; exact start_error h hwt hmesh hr)
      (fun hj0 => by
        rw [mul_pow, Real.sq_sqrt hV]
        refine vdot_le_volume hwt fun i hi n hn g hg => ?_
        have a := euler_defect h hok hp.weights hp.norm (L := M) hj0 (fun g hg n hn i hi s t h0 h1 h2 =>
          hM g hg n hn i hi s t h0 h1 (by simpa using h2)) hi hn hg
        have b := hopen 0 hj0 i hi n hn g hg
        unfold stepDefect timeDiff
        simp only [ne_eq, not_true_eq_false, and_false, if_false]
        exact (abs_add_le _ _).trans (add_le_add a b))
      (fun j hj0 hj => by
        obtain ⟨j, rfl⟩ : ∃ k, j = k + 1 := ⟨j - 1, by omega⟩
        rw [mul_pow, Real.sq_sqrt hV]
        refine vdot_le_volume hwt fun i hi n hn g hg => ?_
        have a := bdf2_defect h hok hp.weights hp.norm (L := L) hj htt hL hi hn hg
        have b := hopen (j + 1) hj i hi n hn g hg
        unfold stepDefect timeDiff
        simp only [ne_eq, Nat.add_eq_zero_iff, one_ne_zero, and_false, not_false_eq_true, and_self, if_true,
          Nat.add_sub_cancel]
        exact (abs_add_le _ _).trans (add_le_add a b)) j hj
    have e : (2 * ((r + zeta * d ^ 2 / 12) * Real.sqrt (phaseVolume p velocity))
          + 3 * dt * ((M * dt / 2 + (zeta' + S * zeta) * d ^ 2 / 12 + tau) * Real.sqrt (phaseVolume p velocity))) ^ 2
        = (2 * (r + zeta * d ^ 2 / 12) + 3 * dt * (M * dt / 2 + (zeta' + S * zeta) * d ^ 2 / 12 + tau)) ^ 2
          * phaseVolume p velocity := by
      rw [← Real.sq_sqrt hV]
      rw [Real.sqrt_sq (Real.sqrt_nonneg _)]
      ring
    rw [e, mul_pow (L * dt ^ 2 + (zeta' + S * zeta) * d ^ 2 / 12 + tau), Real.sq_sqrt hV] at key
    unfold edgeField at key
    rw [Nat.cast_add_one] at key
    set f := u (((j : ℝ) + 1) * dt) with hf
    have h2 := vdot_le_volume (p := p) (velocity := velocity) hwt (b := zeta * d ^ 2 / 12)
      (a := fun i n g => edgeMean x f i n g - cellMean p x f i n g) (fun i hi n hn g hg => by
        rw [abs_sub_comm]
        exact mean_deviation hmesh (fun i hi => ⟨hwt.widths i hi, h.widths i hi⟩) hz (h.space j hj) hi hn hg)
    have h3 : vdot p velocity (fun i n g => psi (j + 1) i n g - cellMean p x f i n g)
          (fun i n g => psi (j + 1) i n g - cellMean p x f i n g)
        ≤ 2 * vdot p velocity (fun i n g => psi (j + 1) i n g - edgeMean x f i n g)
            (fun i n g => psi (j + 1) i n g - edgeMean x f i n g)
          + 2 * vdot p velocity (fun i n g => edgeMean x f i n g - cellMean p x f i n g)
            (fun i n g => edgeMean x f i n g - cellMean p x f i n g) := by
      simp only [vdot_eq]
      rw [mul_sum, mul_sum, ← sum_add_distrib]
      refine sum_le_sum fun y hy => ?_
      have h4 := hwt.nonneg hy
      nlinarith [mul_nonneg h4 (sq_nonneg ((psi (j + 1) y.2.2 y.2.1 y.1 - edgeMean x f y.2.2 y.2.1 y.1)
        - (edgeMean x f y.2.2 y.2.1 y.1 - cellMean p x f y.2.2 y.2.1 y.1)))]
    refine h3.trans ((add_le_add (mul_le_mul_of_nonneg_left key zero_le_two)
      (mul_le_mul_of_nonneg_left h2 zero_le_two)).trans (le_of_eq ?_))
    ring
  · have h0 : ∀ a b : ℕ → ℕ → ℕ → ℝ, vdot p velocity a b = 0 := fun a b => by
      unfold vdot
      simp [hcells]
    rw [h0]
    unfold phaseVolume
    rw [h0]
    simp

end

/-! ## The drivers -/

/-- C210 (`timed1d.backward_euler` in an absorbing medium, steps solved exactly): the scalar flux against the cell averages of
the exact one, `O(dt + dx^2)` with constants that do not depend on the number of steps. -/
theorem C210_backward_euler (p : Problem ℝ) (x : ℕ → ℝ) (xsTotal : ℕ → ℕ → ℝ)
    (scatter : ℕ → ℕ → ℕ → ℝ) (fission : Fission ℝ) (velocity : ℕ → ℝ) (external boundary : TimeArr ℝ) (steps : ℕ)
    (dt c : ℝ) (init : ℕ → ℕ → ℕ → ℝ) (hc : 0 < c)
    (hp : Absorbs p xsTotal (fun m g g' => scatter m g g' + fissionMatrix fission m g g') velocity dt c)
    (hG : 0 < p.groups) (hext : Covers external steps) (hbnd : Covers boundary steps)
    (hdown : ∀ m g g', g ≤ g' → scatter m g g' + fissionMatrix fission m g g' = 0)
    {Q : ℝ → ℕ → ℕ → ℕ → ℝ → ℝ} {u ut : ℝ → ℕ → ℕ → ℝ → ℝ} {u1 : ℝ → ℕ → ℕ → ℕ → ℝ → ℝ} {d zeta zeta' S : ℝ}
    (h : SmoothSolution p x xsTotal (fun m g g' => scatter m g g' + fissionMatrix fission m g g') velocity
      external boundary dt steps Q u ut u1 d zeta zeta' S)
    (r : ℝ) (hr0 : 0 ≤ r)
    (hr : ∀ i < p.cells, ∀ n < p.angles, ∀ g < p.groups, |init i n g - cellMean p x (u 0) i n g| ≤ r)
    (L : ℝ) (hL0 : 0 ≤ L)
    (hL : ∀ g < p.groups, ∀ n < p.angles, ∀ i ≤ p.cells, ∀ s t, 0 ≤ s → s ≤ t → t ≤ (steps : ℝ) * dt →
      |ut t g n (x i) - ut s g n (x i)| ≤ L * (t - s)) :
    ∃ out : ℕ → ℕ → ℕ → ℝ,
      backwardEuler p xsTotal (.iso scatter) fission velocity external boundary steps dt init = .ok out ∧
      ∀ j < steps, scalarSquare p velocity
          (fun i g => out j i g - quadrature p (cellMean p x (u (((j : ℝ) + 1) * dt))) i g)
        ≤ ((r + zeta * d ^ 2 / 12) / (1 + c * dt) ^ (j + 1)
          + (L * dt / 2 + (zeta' + S * zeta) * d ^ 2 / 12) / c + zeta * d ^ 2 / 12) ^ 2 * phaseVolume p velocity := by
  obtain ⟨out, psi, h1, h2, h3, h4⟩ := timed_downscatter false p xsTotal scatter fission velocity external boundary
    steps dt init (hp.whole hc.le) hG hext hbnd hdown
  subst h2
  refine ⟨out, by simpa using h1, fun j hj => (scalarSquare_sub_le (hp.weighted hG) hp.norm (h4 j hj)
    fun _ _ _ _ => rfl).trans ?_⟩
  have key := euler_angular hc hp hG h hr0 hL0 le_rfl hL (phi := fun j => quadrature p (psi (j + 1))) hr h3
    (fun j _ i _ n _ g _ => by rw [openSource_zero]; simp) j hj
  simpa only [add_zero] using key

/-- C210 (`timed1d.backward_euler` in an absorbing medium, any scattering and fission, iterations stopped anywhere): `tau` bounds
what the iterations left open; it enters like a truncation error. -/
theorem C210_backward_euler_unfinished (p : Problem ℝ) (x : ℕ → ℝ) (xsTotal : ℕ → ℕ → ℝ)
    (scatter : ℕ → ℕ → ℕ → ℝ) (fission : Fission ℝ) (velocity : ℕ → ℝ) (external boundary : TimeArr ℝ) (steps : ℕ)
    (dt c : ℝ) (init : ℕ → ℕ → ℕ → ℝ) (hc : 0 < c)
    (hp : Absorbs p xsTotal (fun m g g' => scatter m g g' + fissionMatrix fission m g g') velocity dt c)
    (hG : 0 < p.groups) (hext : Covers external steps) (hbnd : Covers boundary steps)
    {Q : ℝ → ℕ → ℕ → ℕ → ℝ → ℝ} {u ut : ℝ → ℕ → ℕ → ℝ → ℝ} {u1 : ℝ → ℕ → ℕ → ℕ → ℝ → ℝ} {d zeta zeta' S : ℝ}
    (h : SmoothSolution p x xsTotal (fun m g g' => scatter m g g' + fissionMatrix fission m g g') velocity
      external boundary dt steps Q u ut u1 d zeta zeta' S)
    (r : ℝ) (hr0 : 0 ≤ r)
    (hr : ∀ i < p.cells, ∀ n < p.angles, ∀ g < p.groups, |init i n g - cellMean p x (u 0) i n g| ≤ r)
    (L : ℝ) (hL0 : 0 ≤ L)
    (hL : ∀ g < p.groups, ∀ n < p.angles, ∀ i ≤ p.cells, ∀ s t, 0 ≤ s → s ≤ t → t ≤ (steps : ℝ) * dt →
      |ut t g n (x i) - ut s g n (x i)| ≤ L * (t - s)) :
    ∃ (out : ℕ → ℕ → ℕ → ℝ) (psi : ℕ → ℕ → ℕ → ℕ → ℝ),
      backwardEuler p xsTotal (.iso scatter) fission velocity external boundary steps dt init = .ok out ∧
      psi 0 = init ∧
      InexactRun false p xsTotal (fun m g g' => scatter m g g' + fissionMatrix fission m g g') velocity external
        boundary dt steps out psi ∧
      ∀ tau : ℝ, 0 ≤ tau → (∀ j < steps, ∀ i < p.cells, ∀ n < p.angles, ∀ g < p.groups,
        |velocity g * ∑ g' ∈ range p.groups, (scatter (p.mm i) g g' + fissionMatrix fission (p.mm i) g g')
          * (out j i g' - quadrature p (psi (j + 1)) i g')| ≤ tau) →
      ∀ j < steps, vdot p velocity (fun i n g => psi (j + 1) i n g - cellMean p x (u (((j : ℝ) + 1) * dt)) i n g)
          (fun i n g => psi (j + 1) i n g - cellMean p x (u (((j : ℝ) + 1) * dt)) i n g)
        ≤ ((r + zeta * d ^ 2 / 12) / (1 + c * dt) ^ (j + 1)
          + (L * dt / 2 + (zeta' + S * zeta) * d ^ 2 / 12 + tau) / c + zeta * d ^ 2 / 12) ^ 2 * phaseVolume p velocity := by
  obtain ⟨out, psi, h1, h2, h3, -, -⟩ := timed_steps false p xsTotal scatter fission velocity external boundary
    steps dt init (hp.whole hc.le) hG hext hbnd
  subst h2
  exact ⟨out, psi, by simpa using h1, rfl, h3, fun tau htau hopen => euler_angular hc hp hG h hr0 hL0 htau hL
    hr h3 hopen⟩

/-- C210 (`timed1d.bdf2` in an absorbing medium, steps solved exactly): the scalar flux against the cell averages of
the exact one, `O(dt^2 + dx^2)` with constants that do not depend on the number of steps. -/
theorem C210_bdf2 (p : Problem ℝ) (x : ℕ → ℝ) (xsTotal : ℕ → ℕ → ℝ)
    (scatter : ℕ → ℕ → ℕ → ℝ) (fission : Fission ℝ) (velocity : ℕ → ℝ) (external boundary : TimeArr ℝ) (steps : ℕ)
    (dt c : ℝ) (init : ℕ → ℕ → ℕ → ℝ) (hc : 0 < c)
    (hp : Absorbs p xsTotal (fun m g g' => scatter m g g' + fissionMatrix fission m g g') velocity dt c)
    (hG : 0 < p.groups) (hext : Covers external steps) (hbnd : Covers boundary steps)
    (hdown : ∀ m g g', g ≤ g' → scatter m g g' + fissionMatrix fission m g g' = 0)
    {Q : ℝ → ℕ → ℕ → ℕ → ℝ → ℝ} {u ut : ℝ → ℕ → ℕ → ℝ → ℝ} {u1 : ℝ → ℕ → ℕ → ℕ → ℝ → ℝ} {d zeta zeta' S : ℝ}
    (h : SmoothSolution p x xsTotal (fun m g g' => scatter m g g' + fissionMatrix fission m g g') velocity
      external boundary dt steps Q u ut u1 d zeta zeta' S)
    (r : ℝ) (hr0 : 0 ≤ r)
    (hr : ∀ i < p.cells, ∀ n < p.angles, ∀ g < p.groups, |init i n g - cellMean p x (u 0) i n g| ≤ r)
    (utt : ℝ → ℕ → ℕ → ℝ → ℝ) (M L : ℝ) (hM0 : 0 ≤ M)
    (hM : ∀ g < p.groups, ∀ n < p.angles, ∀ i ≤ p.cells, ∀ s t, 0 ≤ s → s ≤ t → t ≤ dt →
      |ut t g n (x i) - ut s g n (x i)| ≤ M * (t - s))
    (htt : ∀ g < p.groups, ∀ n < p.angles, ∀ i ≤ p.cells, ∀ t, 0 ≤ t → t ≤ (steps : ℝ) * dt →
      HasDerivAt (fun s => ut s g n (x i)) (utt t g n (x i)) t)
    (hL : ∀ g < p.groups, ∀ n < p.angles, ∀ i ≤ p.cells, ∀ s t, 0 ≤ s → s ≤ t → t ≤ (steps : ℝ) * dt →
      |utt t g n (x i) - utt s g n (x i)| ≤ L * (t - s)) :
    ∃ out : ℕ → ℕ → ℕ → ℝ,
      bdf2 p xsTotal (.iso scatter) fission velocity external boundary steps dt init = .ok out ∧
      ∀ j < steps, scalarSquare p velocity
          (fun i g => out j i g - quadrature p (cellMean p x (u (((j : ℝ) + 1) * dt))) i g)
        ≤ (2 * ((2 * (r + zeta * d ^ 2 / 12) + 3 * dt * (M * dt / 2 + (zeta' + S * zeta) * d ^ 2 / 12)) ^ 2
              / (1 + c * dt / (9 + c * dt)) ^ j
            + 2 * (9 + c * dt) * (L * dt ^ 2 + (zeta' + S * zeta) * d ^ 2 / 12) ^ 2 / c ^ 2)
          + 2 * (zeta * d ^ 2 / 12) ^ 2) * phaseVolume p velocity := by
  obtain ⟨out, psi, h1, h2, h3, h4⟩ := timed_downscatter true p xsTotal scatter fission velocity external boundary
    steps dt init (hp.whole hc.le) hG hext hbnd hdown
  subst h2
  refine ⟨out, by simpa using h1, fun j hj => (scalarSquare_sub_le (hp.weighted hG) hp.norm (h4 j hj)
    fun _ _ _ _ => rfl).trans ?_⟩
  have key := bdf2_angular hc hp hG h (L := L) hr0 hM0 le_rfl hM htt hL (phi := fun j => quadrature p (psi (j + 1))) hr h3
    (fun j _ i _ n _ g _ => by rw [openSource_zero]; simp) j hj
  simpa only [add_zero] using key

/-- C210 (`timed1d.bdf2` in an absorbing medium, any scattering and fission, iterations stopped anywhere): `tau` bounds
what the iterations left open; it enters like a truncation error. -/
theorem C210_bdf2_unfinished (p : Problem ℝ) (x : ℕ → ℝ) (xsTotal : ℕ → ℕ → ℝ)
    (scatter : ℕ → ℕ → ℕ → ℝ) (fission : Fission ℝ) (velocity : ℕ → ℝ) (external boundary : TimeArr ℝ) (steps : ℕ)
    (dt c : ℝ) (init : ℕ → ℕ → ℕ → ℝ) (hc : 0 < c)
    (hp : Absorbs p xsTotal (fun m g g' => scatter m g g' + fissionMatrix fission m g g') velocity dt c)
    (hG : 0 < p.groups) (hext : Covers external steps) (hbnd : Covers boundary steps)
    {Q : ℝ → ℕ → ℕ → ℕ → ℝ → ℝ} {u ut : ℝ → ℕ → ℕ → ℝ → ℝ} {u1 : ℝ → ℕ → ℕ → ℕ → ℝ → ℝ} {d zeta zeta' S : ℝ}
    (h : SmoothSolution p x xsTotal (fun m g g' => scatter m g g' + fissionMatrix fission m g g') velocity
      external boundary dt steps Q u ut u1 d zeta zeta' S)
    (r : ℝ) (hr0 : 0 ≤ r)
    (hr : ∀ i < p.cells, ∀ n < p.angles, ∀ g < p.groups, |init i n g - cellMean p x (u 0) i n g| ≤ r)
    (utt : ℝ → ℕ → ℕ → ℝ → ℝ) (M L : ℝ) (hM0 : 0 ≤ M)
    (hM : ∀ g < p.groups, ∀ n < p.angles, ∀ i ≤ p.cells, ∀ s t, 0 ≤ s → s ≤ t → t ≤ dt →
      |ut t g n (x i) - ut s g n (x i)| ≤ M * (t - s))
    (htt : ∀ g < p.groups, ∀ n < p.angles, ∀ i ≤ p.cells, ∀ t, 0 ≤ t → t ≤ (steps : ℝ) * dt →
      HasDerivAt (fun s => ut s g n (x i)) (utt t g n (x i)) t)
    (hL : ∀ g < p.groups, ∀ n < p.angles, ∀ i ≤ p.cells, ∀ s t, 0 ≤ s → s ≤ t → t ≤ (steps : ℝ) * dt →
      |utt t g n (x i) - utt s g n (x i)| ≤ L * (t - s)) :
    ∃ (out : ℕ → ℕ → ℕ → ℝ) (psi : ℕ → ℕ → ℕ → ℕ → ℝ),
      bdf2 p xsTotal (.iso scatter) fission velocity external boundary steps dt init = .ok out ∧
      psi 0 = init ∧
      InexactRun true p xsTotal (fun m g g' => scatter m g g' + fissionMatrix fission m g g') velocity external
        boundary dt steps out psi ∧
      ∀ tau : ℝ, 0 ≤ tau → (∀ j < steps, ∀ i < p.cells, ∀ n < p.angles, ∀ g < p.groups,
        |velocity g * ∑ g' ∈ range p.groups, (scatter (p.mm i) g g' + fissionMatrix fission (p.mm i) g g')
          * (out j i g' - quadrature p (psi (j + 1)) i g')| ≤ tau) →
      ∀ j < steps, vdot p velocity (fun i n g => psi (j + 1) i n g - cellMean p x (u (((j : ℝ) + 1) * dt)) i n g)
          (fun i n g => psi (j + 1) i n g - cellMean p x (u (((j : ℝ) + 1) * dt)) i n g)
        ≤ (2 * ((2 * (r + zeta * d ^ 2 / 12) + 3 * dt * (M * dt / 2 + (zeta' + S * zeta) * d ^ 2 / 12 + tau)) ^ 2
              / (1 + c * dt / (9 + c * dt)) ^ j
            + 2 * (9 + c * dt) * (L * dt ^ 2 + (zeta' + S * zeta) * d ^ 2 / 12 + tau) ^ 2 / c ^ 2)
          + 2 * (zeta * d ^ 2 / 12) ^ 2) * phaseVolume p velocity := by
  obtain ⟨out, psi, h1, h2, h3, -, -⟩ := timed_steps true p xsTotal scatter fission velocity external boundary
    steps dt init (hp.whole hc.le) hG hext hbnd
  subst h2
  exact ⟨out, psi, by simpa using h1, rfl, h3, fun tau htau hopen => bdf2_angular hc hp hG h (L := L) hr0 hM0 htau hM htt hL
    hr h3 hopen⟩

/-- C210 (`timed1d.backward_euler` in a medium that does not multiply): the constants grow linearly with the final time. -/
theorem C210_backward_euler_passive (p : Problem ℝ) (x : ℕ → ℝ) (xsTotal : ℕ → ℕ → ℝ)
    (scatter : ℕ → ℕ → ℕ → ℝ) (fission : Fission ℝ) (velocity : ℕ → ℝ) (external boundary : TimeArr ℝ) (steps : ℕ)
    (dt : ℝ) (init : ℕ → ℕ → ℕ → ℝ)
    (hp : PassiveMedium p xsTotal (fun m g g' => scatter m g g' + fissionMatrix fission m g g') velocity dt)
    (hG : 0 < p.groups) (hext : Covers external steps) (hbnd : Covers boundary steps)
    (hdown : ∀ m g g', g ≤ g' → scatter m g g' + fissionMatrix fission m g g' = 0)
    {Q : ℝ → ℕ → ℕ → ℕ → ℝ → ℝ} {u ut : ℝ → ℕ → ℕ → ℝ → ℝ} {u1 : ℝ → ℕ → ℕ → ℕ → ℝ → ℝ} {d zeta zeta' S : ℝ}
    (h : SmoothSolution p x xsTotal (fun m g g' => scatter m g g' + fissionMatrix fission m g g') velocity
      external boundary dt steps Q u ut u1 d zeta zeta' S)
    (r : ℝ) (hr0 : 0 ≤ r)
    (hr : ∀ i < p.cells, ∀ n < p.angles, ∀ g < p.groups, |init i n g - cellMean p x (u 0) i n g| ≤ r)
    (L : ℝ) (hL0 : 0 ≤ L)
    (hL : ∀ g < p.groups, ∀ n < p.angles, ∀ i ≤ p.cells, ∀ s t, 0 ≤ s → s ≤ t → t ≤ (steps : ℝ) * dt →
      |ut t g n (x i) - ut s g n (x i)| ≤ L * (t - s)) (hS0 : 0 ≤ S) :
    ∃ out : ℕ → ℕ → ℕ → ℝ,
      backwardEuler p xsTotal (.iso scatter) fission velocity external boundary steps dt init = .ok out ∧
      ∀ j < steps, scalarSquare p velocity
          (fun i g => out j i g - quadrature p (cellMean p x (u (((j : ℝ) + 1) * dt))) i g)
        ≤ (r + zeta * d ^ 2 / 12 + ((j : ℝ) + 1) * dt * (L * dt / 2 + (zeta' + S * zeta) * d ^ 2 / 12) + zeta * d ^ 2 / 12) ^ 2
          * phaseVolume p velocity := by
  obtain ⟨out, psi, h1, h2, h3, h4⟩ := timed_downscatter false p xsTotal scatter fission velocity external boundary
    steps dt init hp.timed hG hext hbnd hdown
  subst h2
  have hwt := hp.weighted hG
  have hdt : 0 < dt := hp.timed.dt
  have hV : 0 ≤ phaseVolume p velocity := vdot_self_nonneg hwt _
  have hz := h.zeta_nonneg
  have hz' := h.zeta'_nonneg
  refine ⟨out, by simpa using h1, fun j hj => (scalarSquare_sub_le hwt hp.norm (h4 j hj)
    fun _ _ _ _ => rfl).trans ?_⟩
  have hmesh := (h.solves.pde j hj).mesh
  have hR0 : 0 ≤ r + zeta * d ^ 2 / 12 := by positivity
  have hT0 : 0 ≤ L * dt / 2 + (zeta' + S * zeta) * d ^ 2 / 12 := by positivity
  have key := C149_backward_euler hp.timed hwt hp.norm hp.even hp.dissipative (psi := psi) (E := edgeField x dt u)
    (D := edgeRate p x xsTotal (fun m g g' => scatter m g g' + fissionMatrix fission m g g') velocity external dt u)
    (R := (r + zeta * d ^ 2 / 12) * Real.sqrt (phaseVolume p velocity))
    (T := (L * dt / 2 + (zeta' + S * zeta) * d ^ 2 / 12) * Real.sqrt (phaseVolume p velocity))
    (mul_nonneg hR0 (Real.sqrt_nonneg _)) (mul_nonneg hT0 (Real.sqrt_nonneg _)) h3
    (fun j hj => edgeField_transport h hp.timed.velocity j hj)
    (by rw [mul_pow, Real.sq_sqrt hV]; exact start_error h hwt hmesh hr)
    (fun j hj => by
      rw [mul_pow, Real.sq_sqrt hV]
      refine vdot_le_volume hwt fun i hi n hn g hg => ?_
      have hj' : ((j : ℝ) + 1) * dt ≤ (steps : ℝ) * dt :=
        mul_le_mul_of_nonneg_right (by exact_mod_cast hj) hdt.le
      exact euler_defect h hp.timed hp.weights hp.norm (L := L) hj (fun g hg n hn i hi s t h0 h1 h2 =>
        hL g hg n hn i hi s t h0 h1 (h2.trans hj')) hi hn hg) (j + 1) hj
  rw [Nat.cast_add_one, ← mul_assoc, ← add_mul, mul_pow _ (Real.sqrt _), Real.sq_sqrt hV] at key
  unfold edgeField at key
  rw [Nat.cast_add_one] at key
  exact to_averages hwt hmesh h.widths hz (h.space j hj) (by positivity) key

/-- C210 (`timed1d.bdf2` in a medium that does not multiply): second order in the time step and in the widths. -/
theorem C210_bdf2_passive (p : Problem ℝ) (x : ℕ → ℝ) (xsTotal : ℕ → ℕ → ℝ)
    (scatter : ℕ → ℕ → ℕ → ℝ) (fission : Fission ℝ) (velocity : ℕ → ℝ) (external boundary : TimeArr ℝ) (steps : ℕ)
    (dt : ℝ) (init : ℕ → ℕ → ℕ → ℝ)
    (hp : PassiveMedium p xsTotal (fun m g g' => scatter m g g' + fissionMatrix fission m g g') velocity dt)
    (hG : 0 < p.groups) (hext : Covers external steps) (hbnd : Covers boundary steps)
    (hdown : ∀ m g g', g ≤ g' → scatter m g g' + fissionMatrix fission m g g' = 0)
    {Q : ℝ → ℕ → ℕ → ℕ → ℝ → ℝ} {u ut : ℝ → ℕ → ℕ → ℝ → ℝ} {u1 : ℝ → ℕ → ℕ → ℕ → ℝ → ℝ} {d zeta zeta' S : ℝ}
    (h : SmoothSolution p x xsTotal (fun m g g' => scatter m g g' + fissionMatrix fission m g g') velocity
      external boundary dt steps Q u ut u1 d zeta zeta' S)
    (r : ℝ) (hr0 : 0 ≤ r)
    (hr : ∀ i < p.cells, ∀ n < p.angles, ∀ g < p.groups, |init i n g - cellMean p x (u 0) i n g| ≤ r)
    (utt : ℝ → ℕ → ℕ → ℝ → ℝ) (M L : ℝ) (hM0 : 0 ≤ M) (hL0 : 0 ≤ L)
    (hM : ∀ g < p.groups, ∀ n < p.angles, ∀ i ≤ p.cells, ∀ s t, 0 ≤ s → s ≤ t → t ≤ dt →
      |ut t g n (x i) - ut s g n (x i)| ≤ M * (t - s))
    (htt : ∀ g < p.groups, ∀ n < p.angles, ∀ i ≤ p.cells, ∀ t, 0 ≤ t → t ≤ (steps : ℝ) * dt →
      HasDerivAt (fun s => ut s g n (x i)) (utt t g n (x i)) t)
    (hL : ∀ g < p.groups, ∀ n < p.angles, ∀ i ≤ p.cells, ∀ s t, 0 ≤ s → s ≤ t → t ≤ (steps : ℝ) * dt →
      |utt t g n (x i) - utt s g n (x i)| ≤ L * (t - s)) (hS0 : 0 ≤ S) :
    ∃ out : ℕ → ℕ → ℕ → ℝ,
      bdf2 p xsTotal (.iso scatter) fission velocity external boundary steps dt init = .ok out ∧
      ∀ j < steps, scalarSquare p velocity
          (fun i g => out j i g - quadrature p (cellMean p x (u (((j : ℝ) + 1) * dt))) i g)
        ≤ (4 * (r + zeta * d ^ 2 / 12) + 3 * dt * (M * dt / 2 + (zeta' + S * zeta) * d ^ 2 / 12)
          + 4 * ((j : ℝ) * dt) * (L * dt ^ 2 + (zeta' + S * zeta) * d ^ 2 / 12) + zeta * d ^ 2 / 12) ^ 2 * phaseVolume p velocity := by
  obtain ⟨out, psi, h1, h2, h3, h4⟩ := timed_downscatter true p xsTotal scatter fission velocity external boundary
    steps dt init hp.timed hG hext hbnd hdown
  subst h2
  have hwt := hp.weighted hG
  have hdt : 0 < dt := hp.timed.dt
  have hV : 0 ≤ phaseVolume p velocity := vdot_self_nonneg hwt _
  have hz := h.zeta_nonneg
  have hz' := h.zeta'_nonneg
  refine ⟨out, by simpa using h1, fun j hj => (scalarSquare_sub_le hwt hp.norm (h4 j hj)
    fun _ _ _ _ => rfl).trans ?_⟩
  have hmesh := (h.solves.pde j hj).mesh
  have hR0 : 0 ≤ r + zeta * d ^ 2 / 12 := by positivity
  have hT1 : 0 ≤ M * dt / 2 + (zeta' + S * zeta) * d ^ 2 / 12 := by positivity
  have hT2 : 0 ≤ L * dt ^ 2 + (zeta' + S * zeta) * d ^ 2 / 12 := by positivity
  have key := C149_bdf2 hp.timed hwt hp.norm hp.even hp.dissipative (psi := psi) (E := edgeField x dt u)
    (D := edgeRate p x xsTotal (fun m g g' => scatter m g g' + fissionMatrix fission m g g') velocity external dt u)
    (R := (r + zeta * d ^ 2 / 12) * Real.sqrt (phaseVolume p velocity))
    (T1 := (M * dt / 2 + (zeta' + S * zeta) * d ^ 2 / 12) * Real.sqrt (phaseVolume p velocity))
    (T2 := (L * dt ^ 2 + (zeta' + S * zeta) * d ^ 2 / 12) * Real.sqrt (phaseVolume p velocity))
    (mul_nonneg hR0 (Real.sqrt_nonneg _)) (mul_nonneg hT1 (Real.sqrt_nonneg _)) (mul_nonneg hT2 (Real.sqrt_nonneg _)) h3
    (fun j hj => edgeField_transport h hp.timed.velocity j hj)
    (by rw [mul_pow, Real.sq_sqrt hV]; exact start_error h hwt hmesh hr)
    (fun hj0 => by
      rw [mul_pow, Real.sq_sqrt hV]
      refine vdot_le_volume hwt fun i hi n hn g hg => ?_
      exact euler_defect h hp.timed hp.weights hp.norm (L := M) hj0 (fun g hg n hn i hi s t h0 h1 h2 =>
        hM g hg n hn i hi s t h0 h1 (by simpa using h2)) hi hn hg)
    (fun j hj => by
      rw [mul_pow, Real.sq_sqrt hV]
      refine vdot_le_volume hwt fun i hi n hn g hg => ?_
      exact bdf2_defect h hp.timed hp.weights hp.norm (L := L) hj htt hL hi hn hg) j hj
  have e : ∀ q : ℝ, (4 * ((r + zeta * d ^ 2 / 12) * q) + 3 * dt * ((M * dt / 2 + (zeta' + S * zeta) * d ^ 2 / 12) * q)
        + 4 * ((j : ℝ) * dt) * ((L * dt ^ 2 + (zeta' + S * zeta) * d ^ 2 / 12) * q)) ^ 2
      = (4 * (r + zeta * d ^ 2 / 12) + 3 * dt * (M * dt / 2 + (zeta' + S * zeta) * d ^ 2 / 12)
        + 4 * ((j : ℝ) * dt) * (L * dt ^ 2 + (zeta' + S * zeta) * d ^ 2 / 12)) ^ 2 * q ^ 2 := fun q => by ring
  rw [e, Real.sq_sqrt hV] at key
  unfold edgeField at key
  rw [Nat.cast_add_one] at key
  exact to_averages hwt hmesh h.widths hz (h.space j hj) (by positivity) key

/-! ## A concrete case -/

/-- `(1 + t^2) y^2`. -/
def exEvolving (t : ℝ) (_ _ : ℕ) (y : ℝ) : ℝ := (1 + t ^ 2) * y ^ 2

def exEvolvingRate (t : ℝ) (_ _ : ℕ) (y : ℝ) : ℝ := 2 * t * y ^ 2

/-- The source it needs. -/
noncomputable def exEvolvingSource (t : ℝ) (g n : ℕ) (_ : ℕ) (y : ℝ) : ℝ :=
  2 * t * y ^ 2 + (exFlat ℝ).angleX n * ((1 + t ^ 2) * (2 * y)) + (1 + t ^ 2) * y ^ 2
    - (∑ g' ∈ range 2, exFlatXs ℝ 0 g g') * ((1 + t ^ 2) * y ^ 2)

noncomputable def exEvolvingExternal : TimeArr ℝ := ⟨3, fun j => ⟨2, 2, fun i n g =>
  (∫ y in (i : ℝ) / 10..(i : ℝ) / 10 + 1 / 10, exEvolvingSource (((j : ℝ) + 1) * (1 / 2)) g n i y) / (1 / 10)⟩⟩

noncomputable def exEvolvingBoundary : TimeArr ℝ := ⟨3, fun j => ⟨1, 1, fun s _ _ =>
  if s = 0 then 0 else (1 + (((j : ℝ) + 1) * (1 / 2)) ^ 2) * (2 / 10) ^ 2⟩⟩

theorem square_deriv (a y : ℝ) (s : Set ℝ) : HasDerivWithinAt (fun y => a * y ^ 2) (a * (2 * y)) s y := by
  simpa using ((hasDerivAt_pow 2 y).const_mul a).hasDerivWithinAt

theorem square_deriv2 (a y : ℝ) (s : Set ℝ) : HasDerivWithinAt (fun y => a * (2 * y)) (a * 2) s y := by
  simpa using (((hasDerivAt_id y).const_mul 2).const_mul a).hasDerivWithinAt

theorem exEvolving_smooth : SmoothSolution (exFlat ℝ) (fun i => (i : ℝ) / 10) (fun _ _ => 1)
    (fun m g g' => exFlatXs ℝ m g g' + fissionMatrix (.matrix fun _ _ _ => 0) m g g') (fun _ => 1)
    exEvolvingExternal exEvolvingBoundary (1 / 2) 3 exEvolvingSource exEvolving exEvolvingRate
    (fun t _ _ _ y => (1 + t ^ 2) * (2 * y)) (1 / 10) (13 / 2) 6 (3 / 2) where
  solves :=
    { pde := fun j hj =>
        { mesh := fun i _ => by push_cast; show _ = _ + (1 / 10 : ℝ); ring
          deriv := fun g _ n _ i _ y _ => square_deriv _ _ _
          transport := fun g hg n _ i _ y _ => by
            have hg : g < 2 := hg
            have hq : ∀ g' : ℕ, ∑ m ∈ range (exFlat ℝ).angles, (exFlat ℝ).angleW m
                * exEvolving (((j : ℝ) + 1) * (1 / 2)) g' m y = exEvolving (((j : ℝ) + 1) * (1 / 2)) g' 0 y := by
              intro g'
              unfold exEvolving
              rw [← sum_mul, exFlat_tame.norm, one_mul]
            simp only [hq]
            show (exFlat ℝ).angleX n * _ + 1 * _ = ∑ g' ∈ range 2, (exFlatXs ℝ 0 g g' + 0)
              * ((1 + (((j : ℝ) + 1) * (1 / 2)) ^ 2) * y ^ 2) + (exEvolvingSource _ g n i y - _ / 1)
            unfold exEvolvingSource exEvolving exEvolvingRate
            rw [sum_mul]
            simp only [add_zero]
            ring
          inflow := fun g _ => exFlat_inflow _ g _ _ fun n hn => by
            have hx : (((2 : ℕ) : ℝ) / 10) = 2 / 10 := by norm_num
            rcases n with _ | _ | n
            · norm_num [exFlat, sourceAt, entry, exEvolvingBoundary, exEvolving]
            · norm_num [exFlat, sourceAt, entry, exEvolvingBoundary, exEvolving]
            · omega }
      rate := fun g _ n _ i _ t _ _ => by
        unfold exEvolving exEvolvingRate
        simpa using (((hasDerivAt_id t).pow 2).const_add 1).mul_const (((i : ℝ) / 10) ^ 2)
      integrable := fun j _ g _ n _ i _ => by
        refine Continuous.intervalIntegrable ?_ _ _
        unfold exEvolvingSource
        fun_prop
      source := fun j _ g hg n hn i _ => sourceAt_full (A := 2) (G := 2) _ hn hg }
  widths := fun _ _ => le_rfl
  zeta_nonneg := by norm_num
  zeta'_nonneg := by norm_num
  start := ⟨fun _ _ _ _ => (1 + (0 : ℝ) ^ 2) * 2, fun g _ n _ i _ y _ =>
    ⟨square_deriv _ _ _, square_deriv2 _ _ _, by norm_num⟩⟩
  space := fun j hj => ⟨fun _ _ _ _ => (1 + (((j : ℝ) + 1) * (1 / 2)) ^ 2) * 2, fun g _ n _ i _ y _ =>
    ⟨square_deriv _ _ _, square_deriv2 _ _ _, by
      rw [abs_of_nonneg (by positivity)]
      interval_cases j <;> norm_num⟩⟩
  change := fun j hj => ⟨fun _ _ _ y => 2 * (((j : ℝ) + 1) * (1 / 2)) * (2 * y),
    fun _ _ _ _ => 2 * (((j : ℝ) + 1) * (1 / 2)) * 2, fun g _ n _ i _ y _ =>
    ⟨square_deriv _ _ _, square_deriv2 _ _ _, by
      rw [abs_of_nonneg (by positivity)]
      interval_cases j <;> norm_num⟩⟩
  speed := fun i _ g hg => by
    have hg : g < 2 := hg
    show 1 * (1 + ∑ g' ∈ range 2, |exFlatXs ℝ ((exFlat ℝ).mm i) g g' + 0|) ≤ 3 / 2
    simp only [exFlatXs, sum_range_succ, sum_range_zero]
    interval_cases g <;> norm_num [abs_of_pos]

theorem exEvolving_lipschitz {T : ℝ} : ∀ g < (exFlat ℝ).groups, ∀ n < (exFlat ℝ).angles, ∀ i ≤ (exFlat ℝ).cells,
    ∀ s t, 0 ≤ s → s ≤ t → t ≤ T →
      |exEvolvingRate t g n ((i : ℝ) / 10) - exEvolvingRate s g n ((i : ℝ) / 10)| ≤ 1 * (t - s) := by
  intro g _ n _ i hi s t _ hst _
  have hi : i ≤ 2 := hi
  unfold exEvolvingRate
  rw [show 2 * t * ((i : ℝ) / 10) ^ 2 - 2 * s * ((i : ℝ) / 10) ^ 2 = (t - s) * (2 * ((i : ℝ) / 10) ^ 2) by ring,
    abs_of_nonneg (mul_nonneg (by linarith) (by positivity)), one_mul]
  refine mul_le_of_le_one_right (by linarith) ?_
  interval_cases i <;> norm_num

theorem exEvolving_second {T : ℝ} : ∀ g < (exFlat ℝ).groups, ∀ n < (exFlat ℝ).angles, ∀ i ≤ (exFlat ℝ).cells,
    ∀ t, 0 ≤ t → t ≤ T →
      HasDerivAt (fun s => exEvolvingRate s g n ((i : ℝ) / 10))
        ((fun (_ : ℝ) (_ _ : ℕ) (y : ℝ) => 2 * y ^ 2) t g n ((i : ℝ) / 10)) t := by
  intro g _ n _ i _ t _ _
  unfold exEvolvingRate
  simpa using ((hasDerivAt_id t).const_mul 2).mul_const (((i : ℝ) / 10) ^ 2)

/-- Three steps of length `1/2`, started from the cell averages; absorption rate `1/2`. -/
example := C210_backward_euler (exFlat ℝ) (fun i => (i : ℝ) / 10) (fun _ _ => 1) (exFlatXs ℝ) (.matrix fun _ _ _ => 0)
  (fun _ => 1) exEvolvingExternal exEvolvingBoundary 3 (1 / 2) (1 / 2)
  (cellMean (exFlat ℝ) (fun i => (i : ℝ) / 10) (exEvolving 0)) (by norm_num) exFlat_absorbs (by show 0 < 2; omega)
  (Or.inr le_rfl) (Or.inr le_rfl) exFlat_down exEvolving_smooth 0 le_rfl (fun _ _ _ _ _ _ => by simp) 1 zero_le_one
  exEvolving_lipschitz

example := C210_bdf2 (exFlat ℝ) (fun i => (i : ℝ) / 10) (fun _ _ => 1) (exFlatXs ℝ) (.matrix fun _ _ _ => 0)
  (fun _ => 1) exEvolvingExternal exEvolvingBoundary 3 (1 / 2) (1 / 2)
  (cellMean (exFlat ℝ) (fun i => (i : ℝ) / 10) (exEvolving 0)) (by norm_num) exFlat_absorbs (by show 0 < 2; omega)
  (Or.inr le_rfl) (Or.inr le_rfl) exFlat_down exEvolving_smooth 0 le_rfl (fun _ _ _ _ _ _ => by simp)
  (fun _ _ _ y => 2 * y ^ 2) 1 0 zero_le_one exEvolving_lipschitz exEvolving_second
  (fun _ _ _ _ _ _ _ _ _ _ _ => by simp)

example := C210_backward_euler_unfinished (exFlat ℝ) (fun i => (i : ℝ) / 10) (fun _ _ => 1) (exFlatXs ℝ)
  (.matrix fun _ _ _ => 0) (fun _ => 1) exEvolvingExternal exEvolvingBoundary 3 (1 / 2) (1 / 2)
  (cellMean (exFlat ℝ) (fun i => (i : ℝ) / 10) (exEvolving 0)) (by norm_num) exFlat_absorbs (by show 0 < 2; omega)
  (Or.inr le_rfl) (Or.inr le_rfl) exEvolving_smooth 0 le_rfl (fun _ _ _ _ _ _ => by simp) 1 zero_le_one
  exEvolving_lipschitz

example := C210_bdf2_unfinished (exFlat ℝ) (fun i => (i : ℝ) / 10) (fun _ _ => 1) (exFlatXs ℝ)
  (.matrix fun _ _ _ => 0) (fun _ => 1) exEvolvingExternal exEvolvingBoundary 3 (1 / 2) (1 / 2)
  (cellMean (exFlat ℝ) (fun i => (i : ℝ) / 10) (exEvolving 0)) (by norm_num) exFlat_absorbs (by show 0 < 2; omega)
  (Or.inr le_rfl) (Or.inr le_rfl) exEvolving_smooth 0 le_rfl (fun _ _ _ _ _ _ => by simp)
  (fun _ _ _ y => 2 * y ^ 2) 1 0 zero_le_one exEvolving_lipschitz exEvolving_second
  (fun _ _ _ _ _ _ _ _ _ _ _ => by simp)

example := C210_backward_euler_passive (exFlat ℝ) (fun i => (i : ℝ) / 10) (fun _ _ => 1) (exFlatXs ℝ)
  (.matrix fun _ _ _ => 0) (fun _ => 1) exEvolvingExternal exEvolvingBoundary 3 (1 / 2)
  (cellMean (exFlat ℝ) (fun i => (i : ℝ) / 10) (exEvolving 0)) exFlat_passive (by show 0 < 2; omega)
  (Or.inr le_rfl) (Or.inr le_rfl) exFlat_down exEvolving_smooth 0 le_rfl (fun _ _ _ _ _ _ => by simp) 1 zero_le_one
  exEvolving_lipschitz (by norm_num)

example := C210_bdf2_passive (exFlat ℝ) (fun i => (i : ℝ) / 10) (fun _ _ => 1) (exFlatXs ℝ)
  (.matrix fun _ _ _ => 0) (fun _ => 1) exEvolvingExternal exEvolvingBoundary 3 (1 / 2)
  (cellMean (exFlat ℝ) (fun i => (i : ℝ) / 10) (exEvolving 0)) exFlat_passive (by show 0 < 2; omega)
  (Or.inr le_rfl) (Or.inr le_rfl) exFlat_down exEvolving_smooth 0 le_rfl (fun _ _ _ _ _ _ => by simp)
  (fun _ _ _ y => 2 * y ^ 2) 1 0 zero_le_one le_rfl exEvolving_lipschitz exEvolving_second
  (fun _ _ _ _ _ _ _ _ _ _ _ => by simp) (by norm_num)

end Discrete1.Props
