import Verif.Props.SpaceTime

/-!
# C211: steady problems are solved to second order on every mesh

`source_iteration` against the solution of the continuous discrete-ordinates equations: in a medium that absorbs at a rate
`c > 0` the cell averages are within `O(dx^2)` in the mean square on *every* mesh.  (C128 has the maximum norm, but only on
meshes fine enough for the diamond scheme to be positive.)
-/

set_option linter.unusedSectionVars false
set_option linter.unusedSimpArgs false

namespace Discrete1.Props

open Finset Discrete1.Spec Discrete1.Slab Discrete1.Tools Discrete1.MultiGroup Discrete1.Drivers

/-- A solution of the steady multigroup equations is an implicit step without a rate. -/
theorem SolvesMultigroup.steadyStep {p : Problem ℝ} {sigma : ℕ → ℕ → ℝ} {xs : ℕ → ℕ → ℕ → ℝ} {ext bnd : Arr3 ℝ}
    {phi : ℕ → ℕ → ℝ} {e : ℕ → ℕ → ℕ → ℝ} (h : SolvesMultigroup p sigma xs ext bnd phi e) :
    (∀ i < p.cells, ∀ g < p.groups, phi i g = quadrature p (fun i n g => (e g n i + e g n (i + 1)) / 2) i g) ∧
    ImplicitStep p sigma xs (quadrature p fun i n g => (e g n i + e g n (i + 1)) / 2)
      (fun _ _ _ => 0 / (1 * 1)) ext bnd (fun i n g => (e g n i + e g n (i + 1)) / 2) := by
  have h1 : ∀ i < p.cells, ∀ g < p.groups, phi i g = quadrature p (fun i n g => (e g n i + e g n (i + 1)) / 2) i g :=
    fun i hi g hg => h.scalar g hg i hi
  refine ⟨h1, e, fun g hg => ⟨fun n _ i _ => rfl, fun n hn i hi => ?_, h.inflow g hg⟩⟩
  have := h.balance g hg n hn i hi
  beta_reduce at this ⊢
  rw [zero_div, zero_add, this]
  unfold sourceAt
  congr 1
  exact sum_congr rfl fun g' hg' => by rw [h1 i hi g' (mem_range.mp hg')]

/-- C211: the mean-square distance between any solution of the discrete equations and the cell averages of the solution
of the continuous ones, on any mesh of width at most `d`, is at most `(S / c + 1) zeta d^2 / 12`: `zeta` bounds the second
derivative, `S` the collision plus transfer cross sections and `c` is the net absorption. -/
theorem C211_second_order_every_mesh (p : Problem ℝ) (x : ℕ → ℝ) (sigma : ℕ → ℕ → ℝ) (xs : ℕ → ℕ → ℕ → ℝ)
    (ext bnd : Arr3 ℝ) (c d zeta S : ℝ) (hc : 0 < c) (hp : Absorbs p sigma xs (fun _ => 1) 1 c) (hG : 0 < p.groups)
    (hd : ∀ i < p.cells, p.dx i ≤ d) (hz : 0 ≤ zeta) (hS0 : 0 ≤ S)
    (hS : ∀ i < p.cells, ∀ g < p.groups, sigma (p.mm i) g + ∑ g' ∈ range p.groups, |xs (p.mm i) g g'| ≤ S)
    {Q : ℕ → ℕ → ℕ → ℝ → ℝ} {u : ℕ → ℕ → ℝ → ℝ} {u1 : ℕ → ℕ → ℕ → ℝ → ℝ}
    (hu : ContinuousSolution p x sigma xs Q bnd u u1) (hu2 : SmoothInCells p x u u1 zeta)
    (hQ : ∀ g < p.groups, ∀ n < p.angles, ∀ i < p.cells,
      IntervalIntegrable (Q g n i) MeasureTheory.volume (x i) (x i + p.dx i))
    (hext : ∀ g < p.groups, ∀ n < p.angles, ∀ i < p.cells,
      sourceAt ext i n g = (∫ y in x i..x i + p.dx i, Q g n i y) / p.dx i)
    {phi : ℕ → ℕ → ℝ} {e : ℕ → ℕ → ℕ → ℝ} (h : SolvesMultigroup p sigma xs ext bnd phi e) :
    ∑ g ∈ range p.groups, ∑ i ∈ range p.cells, p.dx i *
        (phi i g - ∑ n ∈ range p.angles, p.angleW n * ((∫ y in x i..x i + p.dx i, u g n y) / p.dx i)) ^ 2
      ≤ ((S / c + 1) * (zeta * d ^ 2 / 12)) ^ 2 * (p.groups * ∑ i ∈ range p.cells, p.dx i) := by
  have hwt := hp.weighted hG
  have hwhole := hp.whole hc.le
  obtain ⟨h1, hstep⟩ := h.steadyStep
  obtain ⟨psi, hpsi⟩ : ∃ psi, psi = fun i n g => (e g n i + e g n (i + 1)) / 2 := ⟨_, rfl⟩
  rw [← hpsi] at h1 hstep
  -- the continuous solution as a discrete one with a small rate
  obtain ⟨D, hD⟩ : ∃ D, D = discreteRate p x sigma xs (fun _ => 1) ext u := ⟨_, rfl⟩
  have hE : TransportAt p sigma xs (fun _ => 1) ext bnd (edgeMean x u) D :=
    hD ▸ edge_transport (fun _ _ => zero_lt_one) hu.inflow
  have hu' : ContinuousSolution p x sigma xs (fun g n i y => Q g n i y - (fun _ _ _ => (0 : ℝ)) g n y / (fun _ => 1) g)
      bnd u u1 := by
    simpa using hu
  have hsmall : ∀ i < p.cells, ∀ n < p.angles, ∀ g < p.groups, |D i n g| ≤ S * (zeta * d ^ 2 / 12) := by
    intro i hi n hn g hg
    have := discreteRate_near (velocity := fun _ => 1) (ext := ext) (v1 := fun _ _ _ _ => 0) (zeta' := 0) (S := S)
      (fun i hi => ⟨hwt.widths i hi, hd i hi⟩) (fun _ _ => zero_lt_one)
      (fun i hi g hg => ((hwhole.ok g hg).phys i hi).2) hp.weights hp.norm hz le_rfl
      (fun i hi g hg => by rw [one_mul]; exact hS i hi g hg) hu' hu2
      ⟨fun _ _ _ _ => 0, fun g _ n _ i _ y _ => ⟨hasDerivWithinAt_const _ _ _, hasDerivWithinAt_const _ _ _, by simp⟩⟩
      hQ hext hi hn hg
    rw [← hD] at this
    simp only [edgeMean, add_zero, zero_div, sub_zero, zero_add] at this
    exact this.trans (le_of_eq (by ring))
  have hdiff := inexact_diff hwhole (r := fun _ _ _ => 0) hstep hE fun _ _ _ => 0
  rw [openSource_zero] at hdiff
  simp only [zero_div, sub_zero, add_zero] at hdiff
  have key := absorbing_energy hp hG (rho := fun _ _ _ => 0) (s := D) (by simpa only [zero_div] using hdiff)
  have e0 : vdot p (fun _ => 1) (fun _ _ _ => 0) (fun i n g => psi i n g - edgeMean x u i n g) = 0 := by
    rw [vdot_eq]; exact sum_eq_zero fun _ _ => by simp
  rw [e0, zero_add, mul_one, one_mul] at key
  have hV : 0 ≤ phaseVolume p (fun _ => 1) := vdot_self_nonneg hwt _
  have hz12 : 0 ≤ zeta * d ^ 2 / 12 := by positivity
  have hX := vdot_self_nonneg hwt (fun i n g => psi i n g - edgeMean x u i n g)
  have hkappa : vdot p (fun _ => 1) (fun i n g => psi i n g - edgeMean x u i n g)
      (fun i n g => psi i n g - edgeMean x u i n g) ≤ (S * (zeta * d ^ 2 / 12) / c) ^ 2 * phaseVolume p (fun _ => 1) := by
    have hB := vdot_le_volume hwt hsmall
    have k2 := le_sq_of_work (K := ℝ) (B := S * (zeta * d ^ 2 / 12) / c * Real.sqrt (phaseVolume p fun _ => 1))
      (y := vdot p (fun _ => 1) D (fun i n g => psi i n g - edgeMean x u i n g) / c) hX
      ((le_div_iff₀ hc).mpr (by linarith)) (by
        rw [mul_pow, Real.sq_sqrt hV, div_pow, div_pow, div_mul_eq_mul_div, div_mul_eq_mul_div]
        exact div_le_div_of_nonneg_right ((vdot_cauchy hwt _ _).trans (mul_le_mul_of_nonneg_right hB hX))
          (sq_nonneg c))
    rwa [mul_pow, Real.sq_sqrt hV] at k2
  have k3 := to_averages hwt hu.mesh hd hz hu2 (by positivity) hkappa
  have k4 := scalarSquare_sub_le hwt hp.norm (f' := fun i g => quadrature p (cellMean p x u) i g) h1
    (fun _ _ _ _ => rfl)
  have e1 : scalarSquare p (fun _ => 1) (fun i g => phi i g - quadrature p (cellMean p x u) i g)
      = ∑ g ∈ range p.groups, ∑ i ∈ range p.cells, p.dx i *
        (phi i g - ∑ n ∈ range p.angles, p.angleW n * ((∫ y in x i..x i + p.dx i, u g n y) / p.dx i)) ^ 2 := by
    unfold scalarSquare quadrature cellMean
    simp only [div_one, one_mul]
  have e2 : phaseVolume p (fun _ => 1) = p.groups * ∑ i ∈ range p.cells, p.dx i := by
    unfold phaseVolume vdot
    simp only [div_one, one_mul, mul_one]
    rw [← sum_mul, hp.norm, one_mul, sum_const, card_range, nsmul_eq_mul]
  rw [e1] at k4
  rw [e2] at k3
  refine (k4.trans k3).trans (le_of_eq ?_)
  congr 2
  field_simp

/-- C211 for the driver: in down-scatter problems the flux returned by `source_iteration`, from any guess. -/
theorem C211_source_iteration_downscatter (p : Problem ℝ) (x : ℕ → ℝ) (sigma : ℕ → ℕ → ℝ) (xs : ℕ → ℕ → ℕ → ℝ)
    (ext bnd : Arr3 ℝ) (guess : ℕ → ℕ → ℝ) (c d zeta S : ℝ) (hc : 0 < c) (hp : Absorbs p sigma xs (fun _ => 1) 1 c)
    (hG : 0 < p.groups) (hdown : ∀ m g g', g ≤ g' → xs m g g' = 0)
    (hd : ∀ i < p.cells, p.dx i ≤ d) (hz : 0 ≤ zeta) (hS0 : 0 ≤ S)
    (hS : ∀ i < p.cells, ∀ g < p.groups, sigma (p.mm i) g + ∑ g' ∈ range p.groups, |xs (p.mm i) g g'| ≤ S)
    {Q : ℕ → ℕ → ℕ → ℝ → ℝ} {u : ℕ → ℕ → ℝ → ℝ} {u1 : ℕ → ℕ → ℕ → ℝ → ℝ}
    (hu : ContinuousSolution p x sigma xs Q bnd u u1) (hu2 : SmoothInCells p x u u1 zeta)
    (hQ : ∀ g < p.groups, ∀ n < p.angles, ∀ i < p.cells,
      IntervalIntegrable (Q g n i) MeasureTheory.volume (x i) (x i + p.dx i))
    (hext : ∀ g < p.groups, ∀ n < p.angles, ∀ i < p.cells,
      sourceAt ext i n g = (∫ y in x i..x i + p.dx i, Q g n i y) / p.dx i) :
    ∃ phi, sourceIteration p sigma (.iso xs) ext bnd guess = .ok phi ∧
      ∑ g ∈ range p.groups, ∑ i ∈ range p.cells, p.dx i *
          (phi i g - ∑ n ∈ range p.angles, p.angleW n * ((∫ y in x i..x i + p.dx i, u g n y) / p.dx i)) ^ 2
        ≤ ((S / c + 1) * (zeta * d ^ 2 / 12)) ^ 2 * (p.groups * ∑ i ∈ range p.cells, p.dx i) := by
  obtain ⟨phi, e, h1, h2⟩ := C22_downscatter_exact p sigma xs ext bnd guess (hp.whole hc.le).ok hdown
  exact ⟨phi, h1, C211_second_order_every_mesh p x sigma xs ext bnd c d zeta S hc hp hG hd hz hS0 hS hu hu2 hQ hext h2⟩

/-- C211 for the driver with scattering inside and between the groups: `source_iteration` approaches, from any guess and
geometrically in the number of outer iterations, one flux that is within `O(dx^2)` of the continuous solution. -/
theorem C211_source_iteration (p : Problem ℝ) (x : ℕ → ℝ) (sigma : ℕ → ℕ → ℝ) (xs : ℕ → ℕ → ℕ → ℝ)
    (ext bnd : Arr3 ℝ) (k : ℕ → ℕ → ℝ) (a c d zeta S : ℝ) (ha : 0 ≤ a) (ha1 : a < 1) (hdamp : Damped p sigma xs k a)
    (hc : 0 < c) (hp : Absorbs p sigma xs (fun _ => 1) 1 c) (hG : 0 < p.groups)
    (hd : ∀ i < p.cells, p.dx i ≤ d) (hz : 0 ≤ zeta) (hS0 : 0 ≤ S)
    (hS : ∀ i < p.cells, ∀ g < p.groups, sigma (p.mm i) g + ∑ g' ∈ range p.groups, |xs (p.mm i) g g'| ≤ S)
    {Q : ℕ → ℕ → ℕ → ℝ → ℝ} {u : ℕ → ℕ → ℝ → ℝ} {u1 : ℕ → ℕ → ℕ → ℝ → ℝ}
    (hu : ContinuousSolution p x sigma xs Q bnd u u1) (hu2 : SmoothInCells p x u u1 zeta)
    (hQ : ∀ g < p.groups, ∀ n < p.angles, ∀ i < p.cells,
      IntervalIntegrable (Q g n i) MeasureTheory.volume (x i) (x i + p.dx i))
    (hext : ∀ g < p.groups, ∀ n < p.angles, ∀ i < p.cells,
      sourceAt ext i n g = (∫ y in x i..x i + p.dx i, Q g n i y) / p.dx i) :
    ∃ phi : ℕ → ℕ → ℝ,
      ∑ g ∈ range p.groups, ∑ i ∈ range p.cells, p.dx i *
          (phi i g - ∑ n ∈ range p.angles, p.angleW n * ((∫ y in x i..x i + p.dx i, u g n y) / p.dx i)) ^ 2
        ≤ ((S / c + 1) * (zeta * d ^ 2 / 12)) ^ 2 * (p.groups * ∑ i ∈ range p.cells, p.dx i) ∧
      ∀ (guess : ℕ → ℕ → ℝ) (M : ℝ), 0 ≤ M →
        (∀ g < p.groups, ∑ i ∈ range p.cells, p.dx i * (sigma (p.mm i) g * (guess i g - phi i g) ^ 2) ≤ M) →
        ∃ flux sweeps, 1 ≤ sweeps ∧ sweeps ≤ 100 ∧ sourceIteration p sigma (.iso xs) ext bnd guess = .ok flux ∧
          (∀ g < p.groups, ∑ i ∈ range p.cells, p.dx i * (sigma (p.mm i) g * (flux i g - phi i g) ^ 2)
            ≤ (a ^ sweeps) ^ 2 * M) ∧
          (sweeps < 100 → ∃ prev, p.convOut flux prev = true) := by
  obtain ⟨phi, e, h1, -, h3⟩ := C146_source_iteration_finds_solution p sigma xs ext bnd k a ha ha1 hdamp
  exact ⟨phi, C211_second_order_every_mesh p x sigma xs ext bnd c d zeta S hc hp hG hd hz hS0 hS hu hu2 hQ hext h1, h3⟩

/-! ## A concrete case: `y^2`, half of group 0 scattered into group 1 -/

theorem exQuadratic_smooth : SmoothInCells (exFlat ℝ) (fun i => (i : ℝ) / 10) (fun _ _ y => y ^ 2)
    (fun _ _ _ y => 2 * y) 2 :=
  ⟨fun _ _ _ _ => 2, fun _ _ _ _ _ _ y _ => ⟨by simpa using square_deriv 1 y _, by simpa using square_deriv2 1 y _,
    by norm_num⟩⟩

theorem exFlatXs_absorbs : Absorbs (exFlat ℝ) (fun _ _ => 1) (exFlatXs ℝ) (fun _ => 1) 1 (1 / 2) where
  timed := ⟨fun g hg => ⟨(exFlat_timed.ok g hg).slab, (exFlat_timed.ok g hg).nonzero, fun i hi =>
    ⟨((exFlat_timed.ok g hg).phys i hi).1, by norm_num⟩⟩, exFlat_timed.angles, exFlat_timed.velocity, one_pos⟩
  weights := exFlat_tame.weights
  norm := exFlat_tame.norm
  even := EvenReflection.vacuum _ _ _
  dissipative := Dissipative.of_sums fun i _ g hg => by
    have hg : g < 2 := hg
    show ∑ g' ∈ range 2, |exFlatXs ℝ ((exFlat ℝ).mm i) g g'| + ∑ g' ∈ range 2, |exFlatXs ℝ ((exFlat ℝ).mm i) g' g|
      ≤ 2 * (1 - 1 / 2 / 1)
    simp only [exFlatXs, sum_range_succ, sum_range_zero]
    interval_cases g <;> norm_num [abs_of_pos]

theorem exFlatXs_damped : Damped (exFlat ℝ) (fun _ _ => 1) (exFlatXs ℝ) (exFlatXs ℝ 0) (1 / 2) where
  ok := fun g _ => exFlat_ok g
  weights := exFlat_tame.weights
  norm := exFlat_tame.norm
  even := EvenReflection.vacuum _ _ _
  ratio := fun g _ g' _ => by unfold exFlatXs; split_ifs <;> norm_num
  coupling := fun i _ g _ g' _ => by simp [exFlatXs]
  rows := fun g hg => by
    have hg : g < 2 := hg
    show ∑ g' ∈ range 2, exFlatXs ℝ 0 g g' ≤ 1 / 2
    simp only [exFlatXs, sum_range_succ, sum_range_zero]
    interval_cases g <;> norm_num

noncomputable def exQuadraticSource (g n : ℕ) (_ : ℕ) (y : ℝ) : ℝ :=
  (exFlat ℝ).angleX n * (2 * y) + y ^ 2 - ∑ g' ∈ range 2, exFlatXs ℝ 0 g g' * y ^ 2

noncomputable def exQuadraticExternal : Arr3 ℝ := ⟨2, 2, fun i n g =>
  (∫ y in (i : ℝ) / 10..(i : ℝ) / 10 + 1 / 10, exQuadraticSource g n i y) / (1 / 10)⟩

theorem exQuadratic_rates : ∀ i < (exFlat ℝ).cells, ∀ g < (exFlat ℝ).groups,
    (fun _ _ => 1 : ℕ → ℕ → ℝ) ((exFlat ℝ).mm i) g
      + ∑ g' ∈ range (exFlat ℝ).groups, |exFlatXs ℝ ((exFlat ℝ).mm i) g g'| ≤ 3 / 2 := fun i _ g hg => by
  have hg : g < 2 := hg
  show 1 + ∑ g' ∈ range 2, |exFlatXs ℝ ((exFlat ℝ).mm i) g g'| ≤ 3 / 2
  simp only [exFlatXs, sum_range_succ, sum_range_zero]
  interval_cases g <;> norm_num [abs_of_pos]

theorem exQuadratic_integrable : ∀ g < (exFlat ℝ).groups, ∀ n < (exFlat ℝ).angles, ∀ i < (exFlat ℝ).cells,
    IntervalIntegrable (exQuadraticSource g n i) MeasureTheory.volume ((i : ℝ) / 10) ((i : ℝ) / 10 + (exFlat ℝ).dx i) :=
  fun g _ n _ i _ => by
    refine Continuous.intervalIntegrable ?_ _ _
    unfold exQuadraticSource
    fun_prop

/-- Net absorption 1/2. -/
example (guess : ℕ → ℕ → ℝ) := C211_source_iteration_downscatter (exFlat ℝ) (fun i => (i : ℝ) / 10) (fun _ _ => 1)
  (exFlatXs ℝ) exQuadraticExternal _ guess (1 / 2) (1 / 10) 2 (3 / 2) (by norm_num) exFlatXs_absorbs
  (by show 0 < 2; omega) (fun m g g' h => by simpa [fissionMatrix] using exFlat_down (K := ℝ) m g g' h)
  (fun _ _ => le_rfl) (by norm_num) (by norm_num) exQuadratic_rates exQuadratic exQuadratic_smooth
  exQuadratic_integrable (fun g hg n hn i _ => sourceAt_full (A := 2) (G := 2) _ hn hg)

example := C211_source_iteration (exFlat ℝ) (fun i => (i : ℝ) / 10) (fun _ _ => 1)
  (exFlatXs ℝ) exQuadraticExternal _ _ (1 / 2) (1 / 2) (1 / 10) 2 (3 / 2) (by norm_num) (by norm_num) exFlatXs_damped
  (by norm_num) exFlatXs_absorbs
  (by show 0 < 2; omega) (fun _ _ => le_rfl) (by norm_num) (by norm_num) exQuadratic_rates exQuadratic exQuadratic_smooth
  exQuadratic_integrable (fun g hg n hn i _ => sourceAt_full (A := 2) (G := 2) _ hn hg)

example {phi : ℕ → ℕ → ℝ} {e : ℕ → ℕ → ℕ → ℝ} := C211_second_order_every_mesh (exFlat ℝ) (fun i => (i : ℝ) / 10)
  (fun _ _ => 1) (exFlatXs ℝ) exQuadraticExternal _ (1 / 2) (1 / 10) 2 (3 / 2) (by norm_num) exFlatXs_absorbs
  (by show 0 < 2; omega) (fun _ _ => le_rfl) (by norm_num) (by norm_num) exQuadratic_rates exQuadratic exQuadratic_smooth
  exQuadratic_integrable (fun g hg n hn i _ => sourceAt_full (A := 2) (G := 2) _ hn hg) (phi := phi) (e := e)

end Discrete1.Props
