import Verif.Props.Existence
import Verif.Props.Converge
import Verif.Props.Reflect

/-!
# C145, C146: the energy (mean square) method - results that hold on every mesh

The diamond-difference scheme conserves the square of the flux: multiplied with the cell averages, the
streaming terms telescope.  No condition on the cell widths is needed anywhere in this file.
-/

set_option linter.unusedSectionVars false
set_option linter.unusedSimpArgs false

namespace Discrete1.Props

open Finset Discrete1.Spec Discrete1.Slab Discrete1.Tools Discrete1.MultiGroup Discrete1.Drivers

variable {K : Type} [Field K] [LinearOrder K] [IsStrictOrderedRing K]

/-! ## One sweep -/

/-- A direction that is fed by reflection carries no more current than the mirror direction that feeds it
(equality for every symmetric quadrature; nothing is required of vacuum boundaries). -/
def EvenReflection (A : ℕ) (mu w : ℕ → K) (reflL reflR : Bool) : Prop :=
  ∀ n < A, A - 1 - n < n → leavesReflecting reflL reflR (mu (A - 1 - n)) →
    w n * |mu n| ≤ w (A - 1 - n) * |mu (A - 1 - n)|

theorem EvenReflection.of_symmetric {A : ℕ} {mu w : ℕ → K} (hmu : Symmetric A mu)
    (hw : ∀ n < A, w (A - 1 - n) = w n) (reflL reflR : Bool) : EvenReflection A mu w reflL reflR := by
  intro n hn _ _
  rw [hmu.mirror n hn, hw n hn, abs_neg]

theorem EvenReflection.vacuum (A : ℕ) (mu w : ℕ → K) : EvenReflection A mu w false false := by
  intro n _ _ h
  rcases h with h | h <;> exact absurd h.2 (by simp)

/-- The streaming terms of one direction, weighted with the cell averages, telescope. -/
theorem streaming_energy {N : ℕ} {mu : K} {dx sigma q e : ℕ → K} (hphys : Physical N dx sigma) (hmu : mu ≠ 0)
    (h : CellBalance N mu dx sigma q e) :
    ∑ i ∈ range N, dx i * (sigma i * ((e i + e (i + 1)) / 2) ^ 2)
      + |mu| / 2 * (outflow N mu e ^ 2 - inflow N mu e ^ 2)
      = ∑ i ∈ range N, dx i * (q i * ((e i + e (i + 1)) / 2)) := by
  have tele : ∑ i ∈ range N, mu / 2 * (e (i + 1) ^ 2 - e i ^ 2) = mu / 2 * (e N ^ 2 - e 0 ^ 2) := by
    rw [← mul_sum, sum_range_sub (fun i => e i ^ 2)]
  have hends : |mu| / 2 * (outflow N mu e ^ 2 - inflow N mu e ^ 2) = mu / 2 * (e N ^ 2 - e 0 ^ 2) := by
    unfold outflow inflow
    by_cases hp : 0 < mu
    · rw [if_pos hp, if_pos hp, abs_of_pos hp]
    · rw [if_neg hp, if_neg hp, abs_of_neg (lt_of_le_of_ne (not_lt.mp hp) hmu)]; ring
  rw [hends, ← tele, ← sum_add_distrib]
  refine sum_congr rfl fun i hi => ?_
  have hi := mem_range.mp hi
  rw [← h i hi]
  have := (hphys i hi).1.ne'
  field_simp
  ring

/-- Energy estimate of one sweep: what collisions dissipate is at most what the source supplies plus what
enters through the boundary.  `b n` is the boundary source of direction `n`, absent where reflection feeds. -/
theorem swept_energy {N A : ℕ} {mu w dx sigma : ℕ → K} {q e : ℕ → ℕ → K} {bcL bcR : Bool} {bL bR : ℕ → K}
    (hw : ∀ n < A, 0 ≤ w n) (hev : EvenReflection A mu w bcL bcR) (hne : ∀ n < A, mu n ≠ 0)
    (hphys : Physical N dx sigma) (h : AllBalanced N A mu dx sigma q e)
    (hin : SweptInflow N A mu bcL bcR bL bR e)
    (hb : ∀ n < A, A - 1 - n < n → leavesReflecting bcL bcR (mu (A - 1 - n)) →
      (if 0 < mu n then bL n else bR n) = 0) :
    ∑ n ∈ range A, w n * ∑ i ∈ range N, dx i * (sigma i * ((e n i + e n (i + 1)) / 2) ^ 2)
      ≤ ∑ n ∈ range A, w n * ∑ i ∈ range N, dx i * (q n i * ((e n i + e n (i + 1)) / 2))
        + ∑ n ∈ range A, w n * (|mu n| / 2 * (if 0 < mu n then bL n else bR n) ^ 2) := by
  have h1 : ∀ n ∈ range A, w n * ∑ i ∈ range N, dx i * (q n i * ((e n i + e n (i + 1)) / 2))
      = w n * ∑ i ∈ range N, dx i * (sigma i * ((e n i + e n (i + 1)) / 2) ^ 2)
        + (w n * (|mu n| / 2 * outflow N (mu n) (e n) ^ 2) - w n * (|mu n| / 2 * inflow N (mu n) (e n) ^ 2)) := by
    intro n hn
    rw [← streaming_energy hphys (hne n (mem_range.mp hn)) (h n (mem_range.mp hn))]
    ring
  rw [sum_congr rfl h1, sum_add_distrib, sum_sub_distrib]
  have h2 : ∑ n ∈ range A, w n * (|mu n| / 2 * inflow N (mu n) (e n) ^ 2)
      ≤ ∑ n ∈ range A, w n * (|mu n| / 2 * outflow N (mu n) (e n) ^ 2)
        + ∑ n ∈ range A, w n * (|mu n| / 2 * (if 0 < mu n then bL n else bR n) ^ 2) := by
    rw [← sum_range_reflect (fun n => w n * (|mu n| / 2 * outflow N (mu n) (e n) ^ 2)), ← sum_add_distrib]
    refine sum_le_sum fun n hn => ?_
    have hn := mem_range.mp hn
    have hm : A - 1 - n < A := by omega
    have p1 : 0 ≤ w n * (|mu n| / 2 * (if 0 < mu n then bL n else bR n) ^ 2) :=
      mul_nonneg (hw n hn) (mul_nonneg (div_nonneg (abs_nonneg _) zero_le_two) (sq_nonneg _))
    have p2 : 0 ≤ w (A - 1 - n) * (|mu (A - 1 - n)| / 2 * outflow N (mu (A - 1 - n)) (e (A - 1 - n)) ^ 2) :=
      mul_nonneg (hw _ hm) (mul_nonneg (div_nonneg (abs_nonneg _) zero_le_two) (sq_nonneg _))
    rw [hin n hn]
    by_cases hc : A - 1 - n < n ∧ leavesReflecting bcL bcR (mu (A - 1 - n))
    · rw [if_pos hc, hb n hn hc.1 hc.2, zero_add]
      have := mul_le_mul_of_nonneg_right (hev n hn hc.1 hc.2)
        (div_nonneg (sq_nonneg (outflow N (mu (A - 1 - n)) (e (A - 1 - n)))) (zero_le_two (α := K)))
      calc _ = w n * |mu n| * (outflow N (mu (A - 1 - n)) (e (A - 1 - n)) ^ 2 / 2) := by ring
        _ ≤ _ := this
        _ ≤ _ := by linarith
    · rw [if_neg hc, add_zero]
      linarith
  linarith

/-- The square of a quadrature sum is at most the quadrature sum of the squares. -/
theorem jensen {A : ℕ} {w x : ℕ → K} (hw : ∀ n < A, 0 ≤ w n) (hsum : ∑ n ∈ range A, w n = 1) :
    (∑ n ∈ range A, w n * x n) ^ 2 ≤ ∑ n ∈ range A, w n * x n ^ 2 := by
  have h : ∀ m : K, 0 ≤ ∑ n ∈ range A, w n * (x n - m) ^ 2 := fun m =>
    sum_nonneg fun n hn => mul_nonneg (hw n (mem_range.mp hn)) (sq_nonneg _)
  have e : ∀ m : K, ∑ n ∈ range A, w n * (x n - m) ^ 2
      = ∑ n ∈ range A, w n * x n ^ 2 - 2 * m * ∑ n ∈ range A, w n * x n + m ^ 2 * ∑ n ∈ range A, w n := by
    intro m
    rw [mul_sum, mul_sum, ← sum_sub_distrib, ← sum_add_distrib]
    exact sum_congr rfl fun n _ => by ring
  have := h (∑ n ∈ range A, w n * x n)
  rw [e, hsum] at this
  nlinarith

/-- The scalar flux dissipates no more than the angular fluxes. -/
theorem scalar_energy_le {N A : ℕ} {w dx sigma : ℕ → K} {e : ℕ → ℕ → K} (hw : ∀ n < A, 0 ≤ w n)
    (hsum : ∑ n ∈ range A, w n = 1) (hphys : Physical N dx sigma) :
    ∑ i ∈ range N, dx i * (sigma i * scalarCenter A w e i ^ 2)
      ≤ ∑ n ∈ range A, w n * ∑ i ∈ range N, dx i * (sigma i * ((e n i + e n (i + 1)) / 2) ^ 2) := by
  have : ∑ n ∈ range A, w n * ∑ i ∈ range N, dx i * (sigma i * ((e n i + e n (i + 1)) / 2) ^ 2)
      = ∑ i ∈ range N, dx i * (sigma i * ∑ n ∈ range A, w n * ((e n i + e n (i + 1)) / 2) ^ 2) := by
    simp only [mul_sum]
    rw [sum_comm]
    exact sum_congr rfl fun i _ => sum_congr rfl fun n _ => by ring
  rw [this]
  refine sum_le_sum fun i hi => ?_
  have hi := mem_range.mp hi
  exact mul_le_mul_of_nonneg_left (mul_le_mul_of_nonneg_left (jensen hw hsum) (hphys i hi).2) (hphys i hi).1.le

/-- A source that does not depend on direction works on the scalar flux only. -/
theorem isotropic_work {N A : ℕ} {w dx s : ℕ → K} {e : ℕ → ℕ → K} :
    ∑ n ∈ range A, w n * ∑ i ∈ range N, dx i * (s i * ((e n i + e n (i + 1)) / 2))
      = ∑ i ∈ range N, dx i * (s i * scalarCenter A w e i) := by
  unfold scalarCenter
  simp only [mul_sum]
  rw [sum_comm]
  exact sum_congr rfl fun i _ => sum_congr rfl fun n _ => by ring

/-- The difference of two swept fields with the same boundary data. -/
theorem swept_sub {N A : ℕ} {mu dx sigma : ℕ → K} {q q' e e' : ℕ → ℕ → K} {bcL bcR : Bool} {bL bR : ℕ → K}
    (h : AllBalanced N A mu dx sigma q e) (h' : AllBalanced N A mu dx sigma q' e')
    (hin : SweptInflow N A mu bcL bcR bL bR e) (hin' : SweptInflow N A mu bcL bcR bL bR e') :
    AllBalanced N A mu dx sigma (fun n i => q n i - q' n i) (fun n i => e n i - e' n i) ∧
    SweptInflow N A mu bcL bcR (fun _ => 0) (fun _ => 0) (fun n i => e n i - e' n i) := by
  refine ⟨fun n hn i hi => ?_, fun n hn => ?_⟩
  · linear_combination h n hn i hi - h' n hn i hi
  · have a := hin n hn
    have b := hin' n hn
    simp only [inflow, outflow] at a b ⊢
    split_ifs at a b ⊢ <;> linear_combination a - b

theorem scalarCenter_sub {A : ℕ} {w : ℕ → K} {e e' : ℕ → ℕ → K} (i : ℕ) :
    scalarCenter A w (fun n i => e n i - e' n i) i = scalarCenter A w e i - scalarCenter A w e' i := by
  unfold scalarCenter
  rw [← sum_sub_distrib]
  exact sum_congr rfl fun n _ => by ring

/-! ## C145: known sources -/

/-- Mean square of the angular flux `f i n` of one group, weighted with `s i`, cell widths and quadrature. -/
def angularEnergy (p : Problem K) (s : ℕ → K) (f : ℕ → ℕ → K) : K :=
  ∑ n ∈ range p.angles, p.angleW n * ∑ i ∈ range p.cells, p.dx i * (s i * f i n ^ 2)

/-- Mean square of the scalar flux `f i` of one group, weighted with `s i` and the cell widths. -/
def scalarEnergy (p : Problem K) (s : ℕ → K) (f : ℕ → K) : K :=
  ∑ i ∈ range p.cells, p.dx i * (s i * f i ^ 2)

theorem angularEnergy_congr {p : Problem K} {s : ℕ → K} {f f' : ℕ → ℕ → K}
    (h : ∀ i < p.cells, ∀ n < p.angles, f i n = f' i n) : angularEnergy p s f = angularEnergy p s f' := by
  unfold angularEnergy
  refine sum_congr rfl fun n hn => congrArg _ (sum_congr rfl fun i hi => ?_)
  rw [h i (mem_range.mp hi) n (mem_range.mp hn)]

theorem scalarEnergy_congr {p : Problem K} {s : ℕ → K} {f f' : ℕ → K}
    (h : ∀ i < p.cells, f i = f' i) : scalarEnergy p s f = scalarEnergy p s f' := by
  unfold scalarEnergy
  refine sum_congr rfl fun i hi => ?_
  rw [h i (mem_range.mp hi)]

/-- Boundary source with which direction `n` enters. -/
def entering (p : Problem K) (boundary : Arr3 K) (n g : ℕ) : K :=
  if 0 < p.angleX n then sourceAt boundary 0 n g else sourceAt boundary 1 n g

/-- Reflecting faces: the fed direction carries no more current than the feeding one and has no boundary
source of its own. -/
structure ReflectsOnly (p : Problem K) (boundary : Arr3 K) (g : ℕ) : Prop where
  even : EvenReflection p.angles p.angleX p.angleW p.bcL p.bcR
  none : ∀ n < p.angles, p.angles - 1 - n < n → leavesReflecting p.bcL p.bcR (p.angleX (p.angles - 1 - n)) →
    entering p boundary n g = 0

theorem known_energy {p : Problem K} {xsTotal : ℕ → ℕ → K} {source boundary : Arr3 K} {g : ℕ}
    (hok : SlabOk p xsTotal g) (hpos : ∀ i < p.cells, 0 < xsTotal (p.mm i) g)
    (hw : ∀ n < p.angles, 0 ≤ p.angleW n) (hr : ReflectsOnly p boundary g) {psi : ℕ → ℕ → K}
    (h : KnownSolution p xsTotal source boundary g psi) :
    angularEnergy p (fun i => xsTotal (p.mm i) g) (fun i n => (psi n i + psi n (i + 1)) / 2)
      ≤ angularEnergy p (fun i => 1 / xsTotal (p.mm i) g) (fun i n => sourceAt source i n g)
        + ∑ n ∈ range p.angles, p.angleW n * (|p.angleX n| * entering p boundary n g ^ 2) := by
  have key := swept_energy hw hr.even hok.nonzero hok.phys h.1 h.2 hr.none
  have hwork : ∑ n ∈ range p.angles, p.angleW n * ∑ i ∈ range p.cells, p.dx i *
        (source.val i (bidx source.angles n) (bidx source.groups g) * ((psi n i + psi n (i + 1)) / 2))
      ≤ 1 / 2 * (angularEnergy p (fun i => 1 / xsTotal (p.mm i) g) (fun i n => sourceAt source i n g)
        + angularEnergy p (fun i => xsTotal (p.mm i) g) (fun i n => (psi n i + psi n (i + 1)) / 2)) := by
    unfold angularEnergy
    rw [← sum_add_distrib, mul_sum]
    refine sum_le_sum fun n hn => ?_
    rw [← mul_add, mul_left_comm, ← sum_add_distrib]
    refine mul_le_mul_of_nonneg_left ?_ (hw n (mem_range.mp hn))
    rw [mul_sum]
    refine sum_le_sum fun i hi => ?_
    have hi := mem_range.mp hi
    rw [← mul_add, ← mul_left_comm (p.dx i)]
    refine mul_le_mul_of_nonneg_left ?_ (hok.phys i hi).1.le
    show sourceAt source i n g * _ ≤ 1 / 2 * (1 / xsTotal (p.mm i) g * sourceAt source i n g ^ 2
      + xsTotal (p.mm i) g * ((psi n i + psi n (i + 1)) / 2) ^ 2)
    have hs := hpos i hi
    have : 0 ≤ (1 / xsTotal (p.mm i) g) * (sourceAt source i n g - xsTotal (p.mm i) g * ((psi n i + psi n (i + 1)) / 2)) ^ 2 :=
      mul_nonneg (one_div_pos.mpr hs).le (sq_nonneg _)
    have e : (1 / xsTotal (p.mm i) g) * (sourceAt source i n g - xsTotal (p.mm i) g * ((psi n i + psi n (i + 1)) / 2)) ^ 2
        = 1 / xsTotal (p.mm i) g * sourceAt source i n g ^ 2
          + xsTotal (p.mm i) g * ((psi n i + psi n (i + 1)) / 2) ^ 2
          - 2 * (sourceAt source i n g * ((psi n i + psi n (i + 1)) / 2)) := by
      have := hs.ne'
      field_simp
      ring
    linarith
  have hbd : ∑ n ∈ range p.angles, p.angleW n * (|p.angleX n| / 2 * (if 0 < p.angleX n then
        boundary.val 0 (bidx boundary.angles n) (bidx boundary.groups g)
        else boundary.val 1 (bidx boundary.angles n) (bidx boundary.groups g)) ^ 2)
      = 1 / 2 * ∑ n ∈ range p.angles, p.angleW n * (|p.angleX n| * entering p boundary n g ^ 2) := by
    rw [mul_sum]
    refine sum_congr rfl fun n _ => ?_
    show _ * (_ * entering p boundary n g ^ 2) = _
    ring
  rw [hbd] at key
  change angularEnergy p (fun i => xsTotal (p.mm i) g) (fun i n => (psi n i + psi n (i + 1)) / 2) ≤ _ at key
  linarith

/-- C145: a bound for known-source calculations that holds on every mesh, however coarse, and for every
quadrature with non-negative weights: the mean square of the angular flux, weighted with `sigma_t`, is at most
the mean square of the source, weighted with `1 / sigma_t`, plus the mean square of the incoming flux, weighted
with the current. -/
theorem C145_known_source_angular (p : Problem K) (xsTotal : ℕ → ℕ → K) (source boundary : Arr3 K) (g : ℕ)
    (hA : 1 < p.angles) (hs : source.angles = p.angles)
    (hok : SlabOk p xsTotal g) (hpos : ∀ i < p.cells, 0 < xsTotal (p.mm i) g)
    (hw : ∀ n < p.angles, 0 ≤ p.angleW n) (hr : ReflectsOnly p boundary g) :
    ∃ f, knownSourceAngular p xsTotal source boundary false = .ok f ∧
      angularEnergy p (fun i => xsTotal (p.mm i) g) (fun i n => f i n g)
        ≤ angularEnergy p (fun i => 1 / xsTotal (p.mm i) g) (fun i n => sourceAt source i n g)
          + ∑ n ∈ range p.angles, p.angleW n * (|p.angleX n| * entering p boundary n g ^ 2) := by
  obtain ⟨psi, hpsi⟩ := C08_known_source_exists p xsTotal source boundary g hok
  obtain ⟨f, hf, hfe⟩ := ((C08_known_source p xsTotal source boundary g hok psi hpsi).2.2 hA hs).1
  exact ⟨f, hf, le_of_eq_of_le (angularEnergy_congr fun i hi n hn => hfe n hn i hi)
    (known_energy hok hpos hw hr hpsi)⟩

/-- C145 for the scalar flux, weights summing to one. -/
theorem C145_known_source_scalar (p : Problem K) (xsTotal : ℕ → ℕ → K) (source boundary : Arr3 K) (g : ℕ)
    (hok : SlabOk p xsTotal g) (hpos : ∀ i < p.cells, 0 < xsTotal (p.mm i) g)
    (hw : ∀ n < p.angles, 0 ≤ p.angleW n) (hsum : ∑ n ∈ range p.angles, p.angleW n = 1)
    (hr : ReflectsOnly p boundary g) :
    ∃ f, knownSourceScalar p xsTotal source boundary false = .ok f ∧
      scalarEnergy p (fun i => xsTotal (p.mm i) g) (fun i => f i g)
        ≤ angularEnergy p (fun i => 1 / xsTotal (p.mm i) g) (fun i n => sourceAt source i n g)
          + ∑ n ∈ range p.angles, p.angleW n * (|p.angleX n| * entering p boundary n g ^ 2) := by
  obtain ⟨psi, hpsi⟩ := C08_known_source_exists p xsTotal source boundary g hok
  obtain ⟨f, hf, hfe⟩ := (C08_known_source p xsTotal source boundary g hok psi hpsi).1
  refine ⟨f, hf, le_trans ?_ (known_energy hok hpos hw hr hpsi)⟩
  exact le_of_eq_of_le (scalarEnergy_congr hfe) (scalar_energy_le hw hsum hok.phys)

/-! ## C146: source iteration on every mesh -/

/-- The transfer cross sections, relative to the geometric mean of the totals of the two groups, are at most
`k g g'`, and the rows of `k` sum to at most `c`.  There is no condition on the mesh. -/
structure Damped (p : Problem K) (sigma : ℕ → ℕ → K) (xs : ℕ → ℕ → ℕ → K) (k : ℕ → ℕ → K) (c : K) : Prop where
  ok : ∀ g < p.groups, SlabOk p sigma g
  weights : ∀ n < p.angles, 0 ≤ p.angleW n
  norm : ∑ n ∈ range p.angles, p.angleW n = 1
  even : EvenReflection p.angles p.angleX p.angleW p.bcL p.bcR
  ratio : ∀ g < p.groups, ∀ g' < p.groups, 0 ≤ k g g'
  coupling : ∀ i < p.cells, ∀ g < p.groups, ∀ g' < p.groups,
    xs (p.mm i) g g' ^ 2 ≤ k g g' ^ 2 * (sigma (p.mm i) g * sigma (p.mm i) g')
  rows : ∀ g < p.groups, ∑ g' ∈ range p.groups, k g g' ≤ c

/-- One energy group: a scattering ratio of at most `c` is enough. -/
theorem Damped.one_group {p : Problem K} {sigma : ℕ → ℕ → K} {xs : ℕ → ℕ → ℕ → K} {c : K} (hG : p.groups = 1)
    (hok : SlabOk p sigma 0) (hw : ∀ n < p.angles, 0 ≤ p.angleW n)
    (hsum : ∑ n ∈ range p.angles, p.angleW n = 1) (hev : EvenReflection p.angles p.angleX p.angleW p.bcL p.bcR)
    (hc : 0 ≤ c) (hs : ∀ i < p.cells, |xs (p.mm i) 0 0| ≤ c * sigma (p.mm i) 0) :
    Damped p sigma xs (fun _ _ => c) c where
  ok := fun g hg => by obtain rfl : g = 0 := by omega
                       exact hok
  weights := hw
  norm := hsum
  even := hev
  ratio := fun _ _ _ _ => hc
  coupling := fun i hi g hg g' hg' => by
    obtain rfl : g = 0 := by omega
    obtain rfl : g' = 0 := by omega
    have := pow_le_pow_left₀ (abs_nonneg _) (hs i hi) 2
    rw [sq_abs] at this
    calc _ ≤ _ := this
      _ = _ := by ring
  rows := fun g hg => by rw [hG]; simp

theorem coupling_le {S k a b c f x : K} (hS : S ^ 2 ≤ k ^ 2 * (a * b)) (hk : 0 ≤ k) (ha : 0 ≤ a) (hb : 0 ≤ b)
    (hc : 0 < c) : S * f * x ≤ k * (c * (b * f ^ 2) + a * x ^ 2 / c) / 2 := by
  have hr : 0 ≤ k * (c * (b * f ^ 2) + a * x ^ 2 / c) / 2 := by positivity
  have h : (S * f * x) ^ 2 ≤ (k * (c * (b * f ^ 2) + a * x ^ 2 / c) / 2) ^ 2 := by
    have h1 : (S * f * x) ^ 2 ≤ k ^ 2 * (a * b) * (f * x) ^ 2 := by
      rw [mul_assoc, mul_pow]
      exact mul_le_mul_of_nonneg_right hS (sq_nonneg _)
    have h2 : 0 ≤ (k * (c * (b * f ^ 2) - a * x ^ 2 / c) / 2) ^ 2 := sq_nonneg _
    have h3 : (k * (c * (b * f ^ 2) + a * x ^ 2 / c) / 2) ^ 2
        = (k * (c * (b * f ^ 2) - a * x ^ 2 / c) / 2) ^ 2 + k ^ 2 * (a * b) * (f * x) ^ 2 := by
      field_simp
      ring
    linarith
  exact (le_abs_self _).trans (abs_le_of_sq_le_sq h hr)

/-- The work of the scattering source of fluxes of energy at most `M`. -/
theorem work_le {p : Problem K} {sigma : ℕ → ℕ → K} {xs : ℕ → ℕ → ℕ → K} {k : ℕ → ℕ → K} {c M : K} (hc : 0 ≤ c)
    (hM : 0 ≤ M) (hd : Damped p sigma xs k c) {g : ℕ} (hg : g < p.groups) (f : ℕ → ℕ → K) (x : ℕ → K)
    (hf : ∀ g' < p.groups, scalarEnergy p (fun i => sigma (p.mm i) g') (fun i => f i g') ≤ M) :
    ∑ i ∈ range p.cells, p.dx i * ((∑ g' ∈ range p.groups, xs (p.mm i) g g' * f i g') * x i)
      ≤ c ^ 2 * M / 2 + scalarEnergy p (fun i => sigma (p.mm i) g) x / 2 := by
  have hX : 0 ≤ scalarEnergy p (fun i => sigma (p.mm i) g) x := sum_nonneg fun i hi =>
    mul_nonneg ((hd.ok g hg).phys i (mem_range.mp hi)).1.le
      (mul_nonneg ((hd.ok g hg).phys i (mem_range.mp hi)).2 (sq_nonneg _))
  rcases hc.eq_or_lt with rfl | hc
  · have hz : ∀ i < p.cells, ∀ g' < p.groups, xs (p.mm i) g g' = 0 := by
      intro i hi g' hg'
      have h0 : k g g' = 0 := le_antisymm ((single_le_sum (f := fun g' => k g g')
        (fun j hj => hd.ratio g hg j (mem_range.mp hj)) (mem_range.mpr hg')).trans (hd.rows g hg)) (hd.ratio g hg g' hg')
      have := hd.coupling i hi g hg g' hg'
      rw [h0] at this
      have h2 : xs (p.mm i) g g' ^ 2 ≤ 0 := by simpa using this
      exact pow_eq_zero_iff (two_ne_zero) |>.mp (le_antisymm h2 (sq_nonneg _))
    have : ∑ i ∈ range p.cells, p.dx i * ((∑ g' ∈ range p.groups, xs (p.mm i) g g' * f i g') * x i) = 0 := by
      refine sum_eq_zero fun i hi => ?_
      rw [sum_eq_zero fun g' hg' => by rw [hz i (mem_range.mp hi) g' (mem_range.mp hg'), zero_mul]]
      ring
    rw [this]
    positivity
  · have h1 : ∑ i ∈ range p.cells, p.dx i * ((∑ g' ∈ range p.groups, xs (p.mm i) g g' * f i g') * x i)
        ≤ ∑ g' ∈ range p.groups, k g g' * (c * scalarEnergy p (fun i => sigma (p.mm i) g') (fun i => f i g')
          + scalarEnergy p (fun i => sigma (p.mm i) g) x / c) / 2 := by
      have e : ∑ g' ∈ range p.groups, k g g' * (c * scalarEnergy p (fun i => sigma (p.mm i) g') (fun i => f i g')
          + scalarEnergy p (fun i => sigma (p.mm i) g) x / c) / 2
          = ∑ i ∈ range p.cells, ∑ g' ∈ range p.groups, p.dx i * (k g g' * (c * (sigma (p.mm i) g' * f i g' ^ 2)
            + sigma (p.mm i) g * x i ^ 2 / c) / 2) := by
        rw [sum_comm]
        refine sum_congr rfl fun g' _ => ?_
        unfold scalarEnergy
        rw [mul_sum, sum_div, ← sum_add_distrib, mul_sum, sum_div]
        refine sum_congr rfl fun i _ => ?_
        ring
      rw [e]
      refine sum_le_sum fun i hi => ?_
      have hi := mem_range.mp hi
      rw [← mul_sum]
      refine mul_le_mul_of_nonneg_left ?_ ((hd.ok g hg).phys i hi).1.le
      rw [sum_mul]
      refine sum_le_sum fun g' hg' => ?_
      have hg' := mem_range.mp hg'
      exact coupling_le (hd.coupling i hi g hg g' hg') (hd.ratio g hg g' hg') ((hd.ok g hg).phys i hi).2
        ((hd.ok g' hg').phys i hi).2 hc
    refine h1.trans ?_
    set X := scalarEnergy p (fun i => sigma (p.mm i) g) x
    calc _ ≤ ∑ g' ∈ range p.groups, k g g' * ((c * M + X / c) / 2) := by
          refine sum_le_sum fun g' hg' => ?_
          have hg' := mem_range.mp hg'
          rw [mul_div_assoc]
          refine mul_le_mul_of_nonneg_left ?_ (hd.ratio g hg g' hg')
          have := mul_le_mul_of_nonneg_left (hf g' hg') hc.le
          linarith
      _ ≤ c * ((c * M + X / c) / 2) := by
          rw [← sum_mul]
          exact mul_le_mul_of_nonneg_right (hd.rows g hg) (by positivity)
      _ = _ := by field_simp

/-- One sweep of a group, against any other field with the same boundary data: if the sources differ by the
scattering of fluxes of energy at most `M`, the new scalar fluxes differ by the energy `c^2 M` at most. -/
theorem sweep_contracts_energy {p : Problem K} {sigma : ℕ → ℕ → K} {xs : ℕ → ℕ → ℕ → K} {k : ℕ → ℕ → K} {c M : K}
    (hc : 0 ≤ c) (hM : 0 ≤ M) (hd : Damped p sigma xs k c) {g : ℕ} (hg : g < p.groups) {q q' e e' : ℕ → ℕ → K}
    {bL bR : ℕ → K}
    (h : AllBalanced p.cells p.angles p.angleX p.dx (fun i => sigma (p.mm i) g) q e)
    (h' : AllBalanced p.cells p.angles p.angleX p.dx (fun i => sigma (p.mm i) g) q' e')
    (hin : SweptInflow p.cells p.angles p.angleX p.bcL p.bcR bL bR e)
    (hin' : SweptInflow p.cells p.angles p.angleX p.bcL p.bcR bL bR e') (f : ℕ → ℕ → K)
    (hq : ∀ n < p.angles, ∀ i < p.cells, q n i - q' n i = ∑ g' ∈ range p.groups, xs (p.mm i) g g' * f i g')
    (hf : ∀ g' < p.groups, scalarEnergy p (fun i => sigma (p.mm i) g') (fun i => f i g') ≤ M) :
    scalarEnergy p (fun i => sigma (p.mm i) g)
      (fun i => scalarCenter p.angles p.angleW e i - scalarCenter p.angles p.angleW e' i) ≤ c ^ 2 * M := by
  obtain ⟨h1, h2⟩ := swept_sub h h' hin hin'
  have h3 := swept_energy hd.weights hd.even (hd.ok g hg).nonzero (hd.ok g hg).phys h1 h2 (fun n _ _ _ => by simp)
  have h4 := scalar_energy_le (e := fun n i => e n i - e' n i) hd.weights hd.norm (hd.ok g hg).phys
  simp only [scalarCenter_sub] at h4
  have h5 : ∑ n ∈ range p.angles, p.angleW n * ∑ i ∈ range p.cells, p.dx i * ((q n i - q' n i) *
        ((e n i - e' n i + (e n (i + 1) - e' n (i + 1))) / 2))
      = ∑ i ∈ range p.cells, p.dx i * ((∑ g' ∈ range p.groups, xs (p.mm i) g g' * f i g') *
        (scalarCenter p.angles p.angleW e i - scalarCenter p.angles p.angleW e' i)) := by
    simp only [← scalarCenter_sub]
    rw [← isotropic_work]
    refine sum_congr rfl fun n hn => ?_
    rw [sum_congr rfl fun i hi => by rw [hq n (mem_range.mp hn) i (mem_range.mp hi)]]
  have h6 := work_le hc hM hd hg f
    (fun i => scalarCenter p.angles p.angleW e i - scalarCenter p.angles p.angleW e' i) hf
  have h7 : ∑ n ∈ range p.angles, p.angleW n * (|p.angleX n| / 2 * (if 0 < p.angleX n then (0 : K) else 0) ^ 2) = 0 :=
    sum_eq_zero fun n _ => by simp
  rw [h7, h5] at h3
  unfold scalarEnergy at h6 ⊢
  linarith

theorem scalarEnergy_nonneg {p : Problem K} {s : ℕ → K} (hs : Physical p.cells p.dx s) (f : ℕ → K) :
    0 ≤ scalarEnergy p s f := sum_nonneg fun i hi =>
  mul_nonneg (hs i (mem_range.mp hi)).1.le (mul_nonneg (hs i (mem_range.mp hi)).2 (sq_nonneg _))

/-- C146: one outer sweep, with any number of within-group sweeps in each group, contracts the error in every
group by the factor `c` (its mean square by `c^2`) - on every mesh. -/
theorem C146_outer_sweep_contracts (p : Problem K) (xsTotal : ℕ → ℕ → K) (xs : ℕ → ℕ → ℕ → K)
    (external boundary : Arr3 K) (k : ℕ → ℕ → K) (c M : K) (hc : 0 ≤ c) (hc1 : c ≤ 1) (hM : 0 ≤ M)
    (hd : Damped p xsTotal xs k c) (phi : ℕ → ℕ → K) (psi : ℕ → ℕ → ℕ → K)
    (hsol : SolvesMultigroup p xsTotal xs external boundary phi psi) (old : ℕ → ℕ → K)
    (hold : ∀ g < p.groups, scalarEnergy p (fun i => xsTotal (p.mm i) g) (fun i => old i g - phi i g) ≤ M) :
    ∃ new, oneSweepIso p xsTotal xs external boundary old = .ok new ∧
      ∀ g < p.groups, scalarEnergy p (fun i => xsTotal (p.mm i) g) (fun i => new i g - phi i g) ≤ c ^ 2 * M := by
  have hcM : c ^ 2 * M ≤ M := by
    calc c ^ 2 * M ≤ 1 * M := mul_le_mul_of_nonneg_right (pow_le_one₀ hc hc1) hM
      _ = M := one_mul M
  obtain ⟨new, h1, h2⟩ := loopE_inv (fun j (f : ℕ → ℕ → K) =>
      ∀ g < j, scalarEnergy p (fun i => xsTotal (p.mm i) g) (fun i => f i g - phi i g) ≤ c ^ 2 * M)
    p.groups (groupStepIso p xsTotal xs external boundary old) (fun _ _ => 0)
    (fun g hg => absurd hg (Nat.not_lt_zero _)) (fun j hj f hf => by
      have sweepBound : ∀ a : ℕ → K,
          scalarEnergy p (fun i => xsTotal (p.mm i) j) (fun i => a i - phi i j) ≤ M →
          ∃ b, isotropicSweep p.cells p.angles (fun m => xsTotal m j) (fun m => xs m j j)
            (offScatter p.groups f old p.mm xs j) (external.group (bidx external.groups j))
            (boundary.group (bidx boundary.groups j)) p.mm p.dx p.angleX p.angleW p.bcL p.bcR false a
            = .ok b ∧ scalarEnergy p (fun i => xsTotal (p.mm i) j) (fun i => b i - phi i j) ≤ c ^ 2 * M := by
        intro a ha
        obtain ⟨b, psi', k1, k2, k3, k4⟩ := isotropicSweep_spec (N := p.cells) (A := p.angles)
          (fun m => xsTotal m j) (fun m => xs m j j) (offScatter p.groups f old p.mm xs j)
          (external.group (bidx external.groups j)) (boundary.group (bidx boundary.groups j)) p.mm p.dx
          p.angleX p.angleW p.bcL p.bcR false a (hd.ok j hj).nonzero (hd.ok j hj).phys
        refine ⟨b, k1, ?_⟩
        have key := sweep_contracts_energy hc hM hd hj k2 (hsol.balance j hj) k3 (hsol.inflow j hj)
          (fun i og => (if og = j then a i else if og < j then f i og else old i og) - phi i og)
          (fun n hn i hi => by
            simp only [Arr3.group]
            rw [offScatter_eq _ _ _ _ _ hj, ← add_sum_erase (range p.groups) _ (mem_range.mpr hj),
              ← add_sum_erase (range p.groups) _ (mem_range.mpr hj)]
            simp only [if_true]
            have e2 : ∑ og ∈ (range p.groups).erase j, xs (p.mm i) j og *
                ((if og = j then a i else if og < j then f i og else old i og) - phi i og)
                = ∑ og ∈ (range p.groups).erase j,
                    xs (p.mm i) j og * (if og < j then f i og else old i og)
                  - ∑ og ∈ (range p.groups).erase j, xs (p.mm i) j og * phi i og := by
              rw [← sum_sub_distrib]
              refine sum_congr rfl fun og hog => ?_
              rw [if_neg (mem_erase.mp hog).1]; ring
            rw [e2]; ring)
          (fun og hog => by
            by_cases h1 : og = j
            · subst h1; simpa using ha
            · by_cases h2 : og < j
              · simpa [h1, h2] using (hf og h2).trans hcM
              · simpa [h1, h2] using hold og hog)
        refine le_of_eq_of_le (scalarEnergy_congr fun i hi => ?_) key
        rw [k4 i, hsol.scalar j hj i hi]
        simp only [Bool.false_eq_true, if_false, if_pos hi]
      obtain ⟨x, s, _, _, hstep, hP, he, _⟩ := iterateE_spec (isotropicSweep p.cells p.angles
        (fun m => xsTotal m j) (fun m => xs m j j)
        (offScatter p.groups f old p.mm xs j) (external.group (bidx external.groups j))
        (boundary.group (bidx boundary.groups j)) p.mm p.dx p.angleX p.angleW p.bcL p.bcR false) p.convIn
        (fun a => scalarEnergy p (fun i => xsTotal (p.mm i) j) (fun i => a i - phi i j) ≤ M) (fun a ha => by
          obtain ⟨b, hb1, hb2⟩ := sweepBound a ha
          exact ⟨b, hb1, hb2.trans hcM⟩) 99 (fun i => old i j) (hold j hj)
      obtain ⟨b, hb1, hb2⟩ := sweepBound (x s) (hP s (by omega))
      have hbx : b = x (s + 1) := by
        have := hstep s (le_refl _)
        rw [hb1] at this; exact Except.ok.inj this
      refine ⟨putCol f j (x (s + 1)), ?_, fun g hg => ?_⟩
      · unfold groupStepIso
        simp only [(hd.ok j hj).slab, if_true]
        unfold isotropicSn
        rw [he]; rfl
      · unfold putCol
        by_cases hgk : g = j
        · subst hgk; simpa [← hbx] using hb2
        · simpa [hgk] using hf g (by omega))
  exact ⟨new, h1, h2⟩

/-- C146: the flux returned by source iteration after `s` outer sweeps, on every mesh. -/
theorem C146_source_iteration_converges (p : Problem K) (xsTotal : ℕ → ℕ → K) (xs : ℕ → ℕ → ℕ → K)
    (external boundary : Arr3 K) (k : ℕ → ℕ → K) (c M : K) (hc : 0 ≤ c) (hc1 : c ≤ 1) (hM : 0 ≤ M)
    (hd : Damped p xsTotal xs k c) (phi : ℕ → ℕ → K) (psi : ℕ → ℕ → ℕ → K)
    (hsol : SolvesMultigroup p xsTotal xs external boundary phi psi) (fluxOld : ℕ → ℕ → K)
    (hold : ∀ g < p.groups, scalarEnergy p (fun i => xsTotal (p.mm i) g) (fun i => fluxOld i g - phi i g) ≤ M) :
    ∃ flux sweeps, 1 ≤ sweeps ∧ sweeps ≤ 100 ∧
      sourceIteration p xsTotal (.iso xs) external boundary fluxOld = .ok flux ∧
      (∀ g < p.groups, scalarEnergy p (fun i => xsTotal (p.mm i) g) (fun i => flux i g - phi i g)
        ≤ (c ^ sweeps) ^ 2 * M) ∧
      (sweeps < 100 → ∃ prev, p.convOut flux prev = true) := by
  obtain ⟨x, s, hs1, hs2, hx0, hstep, he, hconv, _⟩ := C21_source_iteration_stops p xsTotal xs external
    boundary fluxOld hd.ok
  have key : ∀ j ≤ s, ∀ g < p.groups,
      scalarEnergy p (fun i => xsTotal (p.mm i) g) (fun i => x j i g - phi i g) ≤ (c ^ j) ^ 2 * M := by
    intro j
    induction j with
    | zero => intro _ g hg; rw [hx0, pow_zero, one_pow, one_mul]; exact hold g hg
    | succ j ih =>
      intro hj g hg
      obtain ⟨new, h1, h2⟩ := C146_outer_sweep_contracts p xsTotal xs external boundary k c ((c ^ j) ^ 2 * M) hc
        hc1 (mul_nonneg (sq_nonneg _) hM) hd phi psi hsol (x j) (ih (by omega))
      have : new = x (j + 1) := by
        have := hstep j (by omega)
        rw [h1] at this; exact Except.ok.inj this
      subst this
      refine (h2 g hg).trans (le_of_eq ?_)
      ring
  exact ⟨x s, s, hs1, hs2, he, key s (le_refl _), fun h => ⟨_, hconv h⟩⟩

/-- C146: at most one solution when `c < 1`, on every mesh (void cells allowed). -/
theorem C146_unique (p : Problem K) (xsTotal : ℕ → ℕ → K) (xs : ℕ → ℕ → ℕ → K)
    (external boundary : Arr3 K) (k : ℕ → ℕ → K) (c : K) (hc : 0 ≤ c) (hc1 : c < 1)
    (hd : Damped p xsTotal xs k c) (phi phi' : ℕ → ℕ → K) (e e' : ℕ → ℕ → ℕ → K)
    (h : SolvesMultigroup p xsTotal xs external boundary phi e)
    (h' : SolvesMultigroup p xsTotal xs external boundary phi' e') :
    (∀ i < p.cells, ∀ g < p.groups, phi i g = phi' i g) ∧
    ∀ g < p.groups, ∀ n < p.angles, ∀ i ≤ p.cells, e g n i = e' g n i := by
  -- the energies of the difference vanish
  have hen : ∀ g < p.groups, scalarEnergy p (fun i => xsTotal (p.mm i) g) (fun i => phi i g - phi' i g) = 0 := by
    intro g hg
    obtain ⟨m, hm, hmax⟩ := (range p.groups).exists_max_image
      (fun g => scalarEnergy p (fun i => xsTotal (p.mm i) g) (fun i => phi i g - phi' i g)) ⟨g, mem_range.mpr hg⟩
    have hm := mem_range.mp hm
    set M := scalarEnergy p (fun i => xsTotal (p.mm i) m) (fun i => phi i m - phi' i m) with hMdef
    have hM : 0 ≤ M := scalarEnergy_nonneg (hd.ok m hm).phys _
    have h1 := sweep_contracts_energy hc hM hd hm (h.balance m hm) (h'.balance m hm) (h.inflow m hm)
      (h'.inflow m hm) (fun i g => phi i g - phi' i g) (fun n hn i hi => by
        simp only [mul_sub, sum_sub_distrib]; ring) (fun g' hg' => hmax g' (mem_range.mpr hg'))
    have h2 : M ≤ c ^ 2 * M := by
      refine le_of_eq_of_le (scalarEnergy_congr fun i hi => ?_) h1
      rw [h.scalar m hm i hi, h'.scalar m hm i hi]
    have h3 : c ^ 2 < 1 := pow_lt_one₀ hc hc1 two_ne_zero
    have h4 : M ≤ 0 := by
      by_contra hpos
      push Not at hpos
      nlinarith
    exact le_antisymm ((hmax g (mem_range.mpr hg)).trans h4) (scalarEnergy_nonneg (hd.ok g hg).phys _)
  have hcell : ∀ i < p.cells, ∀ g < p.groups, xsTotal (p.mm i) g * (phi i g - phi' i g) ^ 2 = 0 := by
    intro i hi g hg
    have h0 := (sum_eq_zero_iff_of_nonneg (fun i hi => mul_nonneg ((hd.ok g hg).phys i (mem_range.mp hi)).1.le
      (mul_nonneg ((hd.ok g hg).phys i (mem_range.mp hi)).2 (sq_nonneg _)))).mp (hen g hg) i (mem_range.mpr hi)
    exact (mul_eq_zero.mp h0).resolve_left ((hd.ok g hg).phys i hi).1.ne'
  have hscat : ∀ i < p.cells, ∀ g < p.groups, ∀ g' < p.groups,
      xs (p.mm i) g g' * (phi i g' - phi' i g') = 0 := by
    intro i hi g hg g' hg'
    have h1 := mul_le_mul_of_nonneg_right (hd.coupling i hi g hg g' hg') (sq_nonneg (phi i g' - phi' i g'))
    have h2 : k g g' ^ 2 * (xsTotal (p.mm i) g * xsTotal (p.mm i) g') * (phi i g' - phi' i g') ^ 2
        = k g g' ^ 2 * xsTotal (p.mm i) g * (xsTotal (p.mm i) g' * (phi i g' - phi' i g') ^ 2) := by ring
    rw [h2, hcell i hi g' hg', mul_zero, ← mul_pow] at h1
    exact pow_eq_zero_iff two_ne_zero |>.mp (le_antisymm h1 (sq_nonneg _))
  have hedge : ∀ g < p.groups, ∀ n < p.angles, ∀ i ≤ p.cells, e g n i = e' g n i := by
    intro g hg
    refine swept_unique (hd.ok g hg).nonzero (hd.ok g hg).phys (h.balance g hg) (fun n hn i hi => ?_)
      (h.inflow g hg) (h'.inflow g hg)
    have hs : ∑ og ∈ range p.groups, xs (p.mm i) g og * phi' i og
        = ∑ og ∈ range p.groups, xs (p.mm i) g og * phi i og := by
      refine sum_congr rfl fun g' hg' => ?_
      have := hscat i hi g hg g' (mem_range.mp hg')
      linear_combination -this
    rw [h'.balance g hg n hn i hi]
    beta_reduce
    rw [hs]
  refine ⟨fun i hi g hg => ?_, hedge⟩
  rw [h.scalar g hg i hi, h'.scalar g hg i hi]
  unfold scalarCenter
  exact sum_congr rfl fun n hn => by
    rw [hedge g hg n (mem_range.mp hn) i hi.le, hedge g hg n (mem_range.mp hn) (i + 1) hi]

theorem solves_zero (p : Problem K) (xsTotal : ℕ → ℕ → K) (xs : ℕ → ℕ → ℕ → K) :
    SolvesMultigroup p xsTotal xs ⟨1, 1, fun _ _ _ => 0⟩ zeroBoundary (fun _ _ => 0) (fun _ _ _ => 0) := by
  refine ⟨fun g hg i hi => ?_, fun g hg n hn i hi => ?_, fun g hg n hn => ?_⟩
  · simp [scalarCenter]
  · simp
  · simp [inflow, outflow, zeroBoundary]

/-- C146, unconditional form: on every mesh, a problem with `c < 1` has exactly one solution, and source
iteration reduces the error of every initial guess by `c` per outer sweep. -/
theorem C146_source_iteration_finds_solution (p : Problem K) (xsTotal : ℕ → ℕ → K) (xs : ℕ → ℕ → ℕ → K)
    (external boundary : Arr3 K) (k : ℕ → ℕ → K) (c : K) (hc : 0 ≤ c) (hc1 : c < 1)
    (hd : Damped p xsTotal xs k c) :
    ∃ phi e, SolvesMultigroup p xsTotal xs external boundary phi e ∧
      (∀ phi' e', SolvesMultigroup p xsTotal xs external boundary phi' e' →
        ∀ i < p.cells, ∀ g < p.groups, phi' i g = phi i g) ∧
      ∀ (guess : ℕ → ℕ → K) (M : K), 0 ≤ M →
        (∀ g < p.groups, scalarEnergy p (fun i => xsTotal (p.mm i) g) (fun i => guess i g - phi i g) ≤ M) →
        ∃ flux sweeps, 1 ≤ sweeps ∧ sweeps ≤ 100 ∧
          sourceIteration p xsTotal (.iso xs) external boundary guess = .ok flux ∧
          (∀ g < p.groups, scalarEnergy p (fun i => xsTotal (p.mm i) g) (fun i => flux i g - phi i g)
            ≤ (c ^ sweeps) ^ 2 * M) ∧
          (sweeps < 100 → ∃ prev, p.convOut flux prev = true) := by
  obtain ⟨phi, e, h⟩ := solves_exists_of_unique p xsTotal xs external boundary hd.ok fun phi e h =>
    (C146_unique p xsTotal xs _ _ k c hc hc1 hd _ _ _ _ h (solves_zero p xsTotal xs)).1
  exact ⟨phi, e, h, fun phi' e' h' => (C146_unique p xsTotal xs external boundary k c hc hc1 hd _ _ _ _ h' h).1,
    fun guess M hM hg => C146_source_iteration_converges p xsTotal xs external boundary k c M hc hc1.le hM hd
      phi e h guess hg⟩

/-! ## C147: what stopping by the tolerance guarantees -/

theorem converged2_rel {N G : ℕ} {tol : K} (htol : 0 ≤ tol) {new old : ℕ → ℕ → K}
    (h : fluxConverged2 N G tol new old = true) :
    ∀ i < N, ∀ g < G, (old i g - new i g) ^ 2 ≤ ((N : K) * tol) ^ 2 * new i g ^ 2 := by
  unfold fluxConverged2 at h
  rw [Bool.and_eq_true, decide_eq_true_eq, decide_eq_true_eq] at h
  obtain ⟨hz, hsum⟩ := h
  rw [accum_eq_sum] at hsum
  intro i hi g hg
  have hN : (0 : K) < N := by exact_mod_cast (by omega : 0 < N)
  have h1 : ((new i g - old i g) / new i g / (N : K)) ^ 2 ≤ tol ^ 2 := by
    refine le_trans ?_ hsum.le
    refine le_trans ?_ (single_le_sum (f := fun i => accum G fun g =>
      ((new i g - old i g) / new i g / (N : K)) ^ 2) (fun j _ => by
        rw [accum_eq_sum]; exact sum_nonneg fun _ _ => sq_nonneg _) (mem_range.mpr hi))
    rw [accum_eq_sum]
    exact single_le_sum (f := fun g => ((new i g - old i g) / new i g / (N : K)) ^ 2)
      (fun j _ => sq_nonneg _) (mem_range.mpr hg)
  have hn := hz i hi g hg
  have h2 := mul_le_mul_of_nonneg_right h1 (sq_nonneg ((N : K) * new i g))
  calc (old i g - new i g) ^ 2
      = ((new i g - old i g) / new i g / (N : K)) ^ 2 * ((N : K) * new i g) ^ 2 := by
        have := hN.ne'
        field_simp
        ring
    _ ≤ _ := h2
    _ = _ := by ring

/-- C147: when source iteration stops by its own criterion before the limit of 100 outer sweeps, the returned
flux is within `c / (1 - c) * cells * tol` of the exact solution, relative to its own size, in the mean square
(weighted with `sigma_t`) - on every mesh and from every initial guess. -/
theorem C147_stopped_is_accurate (p : Problem K) (xsTotal : ℕ → ℕ → K) (xs : ℕ → ℕ → ℕ → K)
    (external boundary : Arr3 K) (k : ℕ → ℕ → K) (c tol : K) (hc : 0 ≤ c) (hc1 : c < 1) (htol : 0 ≤ tol)
    (hd : Damped p xsTotal xs k c) (hco : p.convOut = fluxConverged2 p.cells p.groups tol)
    (guess : ℕ → ℕ → K) (phi : ℕ → ℕ → K) (psi : ℕ → ℕ → ℕ → K)
    (hsol : SolvesMultigroup p xsTotal xs external boundary phi psi) :
    ∃ x sweeps, Run (oneSweepIso p xsTotal xs external boundary) p.convOut 100 guess x sweeps ∧
      sourceIteration p xsTotal (.iso xs) external boundary guess = .ok (x sweeps) ∧
      (sweeps < 100 → ∀ B : K, (∀ g < p.groups,
          scalarEnergy p (fun i => xsTotal (p.mm i) g) (fun i => x sweeps i g) ≤ B) →
        ∀ g < p.groups, (1 - c) ^ 2 * scalarEnergy p (fun i => xsTotal (p.mm i) g) (fun i => x sweeps i g - phi i g)
          ≤ (c * ((p.cells : K) * tol)) ^ 2 * B) := by
  obtain ⟨x, s, hs1, hs2, hx0, hstep, he, hconv, hno⟩ := C21_source_iteration_stops p xsTotal xs external
    boundary guess hd.ok
  refine ⟨x, s, ⟨hx0, hs1, hs2, hstep, hconv, hno⟩, he, fun hlt B hB g hg => ?_⟩
  have hrel := hconv hlt
  rw [hco] at hrel
  have hrel := converged2_rel htol hrel
  obtain ⟨m, hm, hmax⟩ := (range p.groups).exists_max_image
    (fun g => scalarEnergy p (fun i => xsTotal (p.mm i) g) (fun i => x (s - 1) i g - phi i g)) ⟨g, mem_range.mpr hg⟩
  have hm := mem_range.mp hm
  set M := scalarEnergy p (fun i => xsTotal (p.mm i) m) (fun i => x (s - 1) i m - phi i m) with hMdef
  have hM : 0 ≤ M := scalarEnergy_nonneg (hd.ok m hm).phys _
  obtain ⟨new, h1, h2⟩ := C146_outer_sweep_contracts p xsTotal xs external boundary k c M hc hc1.le hM hd phi psi
    hsol (x (s - 1)) (fun g hg => hmax g (mem_range.mpr hg))
  have hnew : new = x s := by
    have := hstep (s - 1) (by omega)
    rw [h1, show s - 1 + 1 = s by omega] at this
    exact Except.ok.inj this
  subst hnew
  have hB0 : 0 ≤ B := (scalarEnergy_nonneg (hd.ok g hg).phys _).trans (hB g hg)
  rcases hc.eq_or_lt with hc0 | hcp
  · have := h2 g hg
    rw [← hc0] at this ⊢
    nlinarith
  have hone : 0 < 1 - c := by linarith
  -- the last change
  have hD : scalarEnergy p (fun i => xsTotal (p.mm i) m) (fun i => x (s - 1) i m - x s i m)
      ≤ ((p.cells : K) * tol) ^ 2 * B := by
    refine le_trans ?_ (mul_le_mul_of_nonneg_left (hB m hm) (sq_nonneg _))
    unfold scalarEnergy
    rw [mul_sum]
    refine sum_le_sum fun i hi => ?_
    have hi := mem_range.mp hi
    calc _ ≤ _ := mul_le_mul_of_nonneg_left (mul_le_mul_of_nonneg_left (hrel i hi m hm) ((hd.ok m hm).phys i hi).2)
          ((hd.ok m hm).phys i hi).1.le
      _ = _ := by ring
  have hsplit : M ≤ scalarEnergy p (fun i => xsTotal (p.mm i) m) (fun i => x (s - 1) i m - x s i m) / (1 - c)
      + scalarEnergy p (fun i => xsTotal (p.mm i) m) (fun i => x s i m - phi i m) / c := by
    rw [hMdef]
    unfold scalarEnergy
    rw [sum_div, sum_div, ← sum_add_distrib]
    refine sum_le_sum fun i hi => ?_
    have hi := mem_range.mp hi
    have hp : ∀ u v : K, (u + v) ^ 2 ≤ u ^ 2 / (1 - c) + v ^ 2 / c := by
      intro u v
      rw [div_add_div _ _ hone.ne' hcp.ne', le_div_iff₀ (mul_pos hone hcp)]
      nlinarith [sq_nonneg (c * u - (1 - c) * v)]
    have := hp (x (s - 1) i m - x s i m) (x s i m - phi i m)
    rw [sub_add_sub_cancel] at this
    calc _ ≤ _ := mul_le_mul_of_nonneg_left (mul_le_mul_of_nonneg_left this ((hd.ok m hm).phys i hi).2)
          ((hd.ok m hm).phys i hi).1.le
      _ = _ := by ring
  have h3 : scalarEnergy p (fun i => xsTotal (p.mm i) m) (fun i => x s i m - phi i m) / c ≤ c * M := by
    rw [div_le_iff₀ hcp]
    refine (h2 m hm).trans (le_of_eq ?_)
    ring
  have h4 : M * (1 - c) ^ 2 ≤ ((p.cells : K) * tol) ^ 2 * B := by
    have h5 : M * (1 - c) ≤ ((p.cells : K) * tol) ^ 2 * B / (1 - c) := by
      have := div_le_div_of_nonneg_right hD hone.le
      linarith
    rw [le_div_iff₀ hone] at h5
    linarith
  calc (1 - c) ^ 2 * scalarEnergy p (fun i => xsTotal (p.mm i) g) (fun i => x s i g - phi i g)
      ≤ (1 - c) ^ 2 * (c ^ 2 * M) := mul_le_mul_of_nonneg_left (h2 g hg) (sq_nonneg _)
    _ = c ^ 2 * (M * (1 - c) ^ 2) := by ring
    _ ≤ c ^ 2 * (((p.cells : K) * tol) ^ 2 * B) := mul_le_mul_of_nonneg_left h4 (sq_nonneg _)
    _ = _ := by ring

/-- C147 on a fine mesh, in the maximum norm. -/
theorem C147_stopped_is_accurate_fine (p : Problem K) (xsTotal : ℕ → ℕ → K) (xs : ℕ → ℕ → ℕ → K)
    (external boundary : Arr3 K) (c tol : K) (hc : 0 ≤ c) (hc1 : c < 1) (htol : 0 ≤ tol)
    (hcon : Contractive p xsTotal xs c) (hco : p.convOut = fluxConverged2 p.cells p.groups tol)
    (guess : ℕ → ℕ → K) (phi : ℕ → ℕ → K) (psi : ℕ → ℕ → ℕ → K)
    (hsol : SolvesMultigroup p xsTotal xs external boundary phi psi) :
    ∃ x sweeps, Run (oneSweepIso p xsTotal xs external boundary) p.convOut 100 guess x sweeps ∧
      sourceIteration p xsTotal (.iso xs) external boundary guess = .ok (x sweeps) ∧
      (sweeps < 100 → ∀ B : K, (∀ i < p.cells, ∀ g < p.groups, |x sweeps i g| ≤ B) →
        ∀ i < p.cells, ∀ g < p.groups, (1 - c) * |x sweeps i g - phi i g| ≤ c * ((p.cells : K) * tol) * B) := by
  obtain ⟨x, s, hs1, hs2, hx0, hstep, he, hconv, hno⟩ := C21_source_iteration_stops p xsTotal xs external
    boundary guess hcon.ok
  refine ⟨x, s, ⟨hx0, hs1, hs2, hstep, hconv, hno⟩, he, fun hlt B hB i hi g hg => ?_⟩
  have hrel := hconv hlt
  rw [hco] at hrel
  have hrel := converged2_rel htol hrel
  have hT : 0 ≤ (p.cells : K) * tol := mul_nonneg (Nat.cast_nonneg _) htol
  have hB0 : 0 ≤ B := (abs_nonneg _).trans (hB i hi g hg)
  have hD : ∀ i < p.cells, ∀ g < p.groups, |x (s - 1) i g - x s i g| ≤ (p.cells : K) * tol * B := by
    intro i hi g hg
    have h1 := hrel i hi g hg
    rw [← mul_pow] at h1
    have h2 := sq_le_sq.mp h1
    refine h2.trans ?_
    rw [abs_mul, abs_of_nonneg hT]
    exact mul_le_mul_of_nonneg_left (hB i hi g hg) hT
  obtain ⟨m, hm, hmax⟩ := (range p.cells ×ˢ range p.groups).exists_max_image
    (fun a => |x (s - 1) a.1 a.2 - phi a.1 a.2|) ⟨(i, g), by simp [hi, hg]⟩
  simp only [mem_product, mem_range] at hm
  set M := |x (s - 1) m.1 m.2 - phi m.1 m.2| with hMdef
  obtain ⟨new, h1, h2⟩ := C74_outer_sweep_contracts p xsTotal xs external boundary c M hc hc1.le (abs_nonneg _)
    hcon phi psi hsol (x (s - 1)) (fun i hi g hg => hmax (i, g) (by simp [hi, hg]))
  have hnew : new = x s := by
    have := hstep (s - 1) (by omega)
    rw [h1, show s - 1 + 1 = s by omega] at this
    exact Except.ok.inj this
  subst hnew
  have h3 : M ≤ (p.cells : K) * tol * B + c * M := by
    have := abs_add_le (x (s - 1) m.1 m.2 - x s m.1 m.2) (x s m.1 m.2 - phi m.1 m.2)
    rw [sub_add_sub_cancel] at this
    have := hD m.1 hm.1 m.2 hm.2
    have := h2 m.1 hm.1 m.2 hm.2
    linarith
  have h4 := mul_le_mul_of_nonneg_left (h2 i hi g hg) (by linarith : 0 ≤ 1 - c)
  have h5 := mul_le_mul_of_nonneg_left h3 hc
  nlinarith

/-! ## Examples: a coarse mesh (`sigma dx` up to 9, `2 |mu|` down to 1/2), left face reflecting -/

theorem exEven : EvenReflection exProblem.angles exProblem.angleX exProblem.angleW exProblem.bcL exProblem.bcR :=
  EvenReflection.of_symmetric exSym (fun _ _ => rfl) _ _

theorem exReflects (b : ℚ) (g : ℕ) : ReflectsOnly exProblem ⟨1, 1, fun s _ _ => if s = 0 then 0 else b⟩ g where
  even := exEven
  none := by
    intro n hn hm _
    have hn : n < 4 := hn
    have hm : 4 - 1 - n < n := hm
    have : 0 < exProblem.angleX n := by
      have : n = 2 ∨ n = 3 := by omega
      rcases this with rfl | rfl <;> norm_num [exProblem]
    simp [entering, this, sourceAt]

example :=
  C145_known_source_angular exProblem exTotal ⟨4, 1, fun i n _ => (i : ℚ) - n⟩
    ⟨1, 1, fun s _ _ => if s = 0 then 0 else 5⟩ 1 (by decide) rfl (exOk 1)
    (fun i _ => by unfold exTotal; positivity) (fun n _ => by show (0 : ℚ) ≤ 1 / 4; norm_num) (exReflects 5 1)

theorem exDamped (conv : (ℕ → ℕ → ℚ) → (ℕ → ℕ → ℚ) → Bool) :
    Damped { exProblem with convOut := conv } exTotal (fun _ g g' => if g' ≤ g then 1 / 4 else -1 / 4)
      (fun _ _ => 1 / 4) (1 / 2) where
  ok := fun g _ => ⟨(exOk g).slab, (exOk g).nonzero, (exOk g).phys⟩
  weights := fun n _ => by show (0 : ℚ) ≤ 1 / 4; norm_num
  norm := by show ∑ n ∈ range 4, (1 / 4 : ℚ) = 1; norm_num [sum_range_succ]
  even := exEven
  ratio := fun _ _ _ _ => by norm_num
  coupling := fun i _ g _ g' _ => by
    have h1 : (1 : ℚ) ≤ exTotal (exProblem.mm i) g := by
      unfold exTotal
      have : (0 : ℚ) ≤ (exProblem.mm i : ℕ) + (g : ℕ) := by positivity
      linarith
    have h2 : (1 : ℚ) ≤ exTotal (exProblem.mm i) g' := by
      unfold exTotal
      have : (0 : ℚ) ≤ (exProblem.mm i : ℕ) + (g' : ℕ) := by positivity
      linarith
    show (if g' ≤ g then (1 / 4 : ℚ) else -1 / 4) ^ 2
      ≤ (1 / 4) ^ 2 * (exTotal (exProblem.mm i) g * exTotal (exProblem.mm i) g')
    have : (if g' ≤ g then (1 / 4 : ℚ) else -1 / 4) ^ 2 = (1 / 4) ^ 2 := by split <;> norm_num
    rw [this]
    nlinarith
  rows := fun g _ => by
    show ∑ _ ∈ range 2, (1 / 4 : ℚ) ≤ 1 / 2
    norm_num [sum_range_succ]

example :=
  C146_source_iteration_finds_solution { exProblem with convOut := fluxConverged2 3 2 (1 / 1000) } exTotal
    (fun _ g g' => if g' ≤ g then 1 / 4 else -1 / 4) ⟨1, 1, fun i _ _ => (i : ℚ)⟩ ⟨1, 1, fun _ _ _ => 7⟩ (fun _ _ => 1 / 4) (1 / 2)
    (by norm_num) (by norm_num) (exDamped _)

example (guess phi : ℕ → ℕ → ℚ) (psi : ℕ → ℕ → ℕ → ℚ)
    (h : SolvesMultigroup { exProblem with convOut := fluxConverged2 3 2 (1 / 1000) } exTotal
      (fun _ g g' => if g' ≤ g then 1 / 4 else -1 / 4) ⟨1, 1, fun i _ _ => (i : ℚ)⟩ ⟨1, 1, fun _ _ _ => 7⟩ phi psi) :=
  C147_stopped_is_accurate { exProblem with convOut := fluxConverged2 3 2 (1 / 1000) } exTotal
    (fun _ g g' => if g' ≤ g then 1 / 4 else -1 / 4) ⟨1, 1, fun i _ _ => (i : ℚ)⟩ ⟨1, 1, fun _ _ _ => 7⟩ (fun _ _ => 1 / 4) (1 / 2)
    (1 / 1000) (by norm_num) (by norm_num) (by norm_num) (exDamped _) rfl guess phi psi h

end Discrete1.Props
