import Verif.Props.Energy
import Verif.Props.Aniso

/-!
# C157: anisotropic within-group iteration converges on every mesh
-/

set_option linter.unusedSectionVars false
set_option linter.unusedSimpArgs false

namespace Discrete1.Props

open Finset Discrete1.Spec Discrete1.Slab Discrete1.Tools Discrete1.MultiGroup Discrete1.Drivers

variable {K : Type} [Field K] [LinearOrder K] [IsStrictOrderedRing K]

/-- The quadrature integrates products of the first `L` Legendre polynomials exactly (normalised weights). -/
def LegendreExact (A L : ℕ) (w : ℕ → K) (P : ℕ → ℕ → K) : Prop :=
  ∀ l < L, ∀ m < L, ∑ n ∈ range A, w n * (P l n * P m n) = if l = m then 1 / (2 * (l : K) + 1) else 0

/-- Bessel's inequality for the flux moments of one cell. -/
theorem bessel {A L : ℕ} {w x : ℕ → K} {P : ℕ → ℕ → K} (hw : ∀ n < A, 0 ≤ w n) (hP : LegendreExact A L w P) :
    ∑ l ∈ range L, (2 * (l : K) + 1) * (∑ n ∈ range A, w n * P l n * x n) ^ 2 ≤ ∑ n ∈ range A, w n * x n ^ 2 := by
  obtain ⟨f, hfl⟩ : ∃ f : ℕ → K, ∀ l, f l = ∑ n ∈ range A, w n * P l n * x n := ⟨_, fun _ => rfl⟩
  simp only [← hfl]
  have h0 : 0 ≤ ∑ n ∈ range A, w n * (x n - ∑ l ∈ range L, (2 * (l : K) + 1) * f l * P l n) ^ 2 :=
    sum_nonneg fun n hn => mul_nonneg (hw n (mem_range.mp hn)) (sq_nonneg _)
  have e1 : ∑ n ∈ range A, w n * (x n * ∑ l ∈ range L, (2 * (l : K) + 1) * f l * P l n)
      = ∑ l ∈ range L, (2 * (l : K) + 1) * f l ^ 2 := by
    simp only [mul_sum]
    rw [sum_comm]
    refine sum_congr rfl fun l _ => ?_
    have : (2 * (l : K) + 1) * f l ^ 2 = (2 * (l : K) + 1) * f l * ∑ n ∈ range A, w n * P l n * x n := by
      rw [← hfl]; ring
    rw [this, mul_sum]
    exact sum_congr rfl fun n _ => by ring
  have e2 : ∑ n ∈ range A, w n * (∑ l ∈ range L, (2 * (l : K) + 1) * f l * P l n) ^ 2
      = ∑ l ∈ range L, (2 * (l : K) + 1) * f l ^ 2 := by
    have : ∀ n, w n * (∑ l ∈ range L, (2 * (l : K) + 1) * f l * P l n) ^ 2
        = ∑ l ∈ range L, ∑ m ∈ range L, (2 * (l : K) + 1) * f l * ((2 * (m : K) + 1) * f m) * (w n * (P l n * P m n)) := by
      intro n
      rw [sq, sum_mul_sum, mul_sum]
      refine sum_congr rfl fun l _ => ?_
      rw [mul_sum]
      exact sum_congr rfl fun m _ => by ring
    rw [sum_congr rfl fun n _ => this n, sum_comm]
    refine sum_congr rfl fun l hl => ?_
    rw [sum_comm]
    have : ∀ m ∈ range L, ∑ n ∈ range A, (2 * (l : K) + 1) * f l * ((2 * (m : K) + 1) * f m) * (w n * (P l n * P m n))
        = if l = m then (2 * (l : K) + 1) * f l ^ 2 else 0 := by
      intro m hm
      rw [← mul_sum, hP l (mem_range.mp hl) m (mem_range.mp hm)]
      split_ifs with h
      · subst h
        have : (2 * (l : K) + 1) ≠ 0 := by positivity
        field_simp
      · rw [mul_zero]
    rw [sum_congr rfl this, sum_ite_eq, if_pos hl]
  have e3 : ∑ n ∈ range A, w n * (x n - ∑ l ∈ range L, (2 * (l : K) + 1) * f l * P l n) ^ 2
      = ∑ n ∈ range A, w n * x n ^ 2
        - 2 * ∑ n ∈ range A, w n * (x n * ∑ l ∈ range L, (2 * (l : K) + 1) * f l * P l n)
        + ∑ n ∈ range A, w n * (∑ l ∈ range L, (2 * (l : K) + 1) * f l * P l n) ^ 2 := by
    rw [mul_sum, ← sum_sub_distrib, ← sum_add_distrib]
    exact sum_congr rfl fun n _ => by ring
  rw [e3, e1, e2] at h0
  linarith

/-- Collision rate of squared flux moments: `sum_i dx_i sigma_i sum_l (2l+1) m_l^2`. -/
def momentEnergy (N L : ℕ) (dx sigma : ℕ → K) (mo : ℕ → ℕ → K) : K :=
  ∑ i ∈ range N, dx i * (sigma i * ∑ l ∈ range L, (2 * (l : K) + 1) * mo i l ^ 2)

theorem momentEnergy_nonneg {N L : ℕ} {dx sigma : ℕ → K} (hphys : Physical N dx sigma) (mo : ℕ → ℕ → K) :
    0 ≤ momentEnergy N L dx sigma mo :=
  sum_nonneg fun i hi => mul_nonneg (hphys i (mem_range.mp hi)).1.le
    (mul_nonneg (hphys i (mem_range.mp hi)).2 (sum_nonneg fun l _ => by positivity))

theorem momentEnergy_congr {N L : ℕ} {dx sigma : ℕ → K} {mo mo' : ℕ → ℕ → K}
    (h : ∀ i < N, ∀ l < L, mo i l = mo' i l) : momentEnergy N L dx sigma mo = momentEnergy N L dx sigma mo' :=
  sum_congr rfl fun i hi => by
    congr 2
    exact sum_congr rfl fun l hl => by rw [h i (mem_range.mp hi) l (mem_range.mp hl)]

/-- Flux moments of an angular flux. -/
def momentOf (A : ℕ) (w : ℕ → K) (P : ℕ → ℕ → K) (e : ℕ → ℕ → K) (i l : ℕ) : K :=
  scalarCenter A (fun n => w n * P l n) e i

/-- One sweep with the anisotropic source of moments `d` and no boundary source: the new moments are smaller. -/
theorem aniso_sweep_contracts {N A L : ℕ} {mu w dx sigma : ℕ → K} {P : ℕ → ℕ → K} {s d e : ℕ → ℕ → K}
    {bcL bcR : Bool} {c : K} (hc : 0 ≤ c) (hw : ∀ n < A, 0 ≤ w n) (hev : EvenReflection A mu w bcL bcR)
    (hne : ∀ n < A, mu n ≠ 0) (hphys : Physical N dx sigma) (hP : LegendreExact A L w P)
    (hs : ∀ i < N, ∀ l < L, |s i l| ≤ c * sigma i)
    (h : AllBalanced N A mu dx sigma (fun n i => ∑ l ∈ range L, (2 * (l : K) + 1) * s i l * d i l * P l n) e)
    (hin : SweptInflow N A mu bcL bcR (fun _ => 0) (fun _ => 0) e) :
    momentEnergy N L dx sigma (momentOf A w P e) ≤ c ^ 2 * momentEnergy N L dx sigma d := by
  have hE := swept_energy hw hev hne hphys h hin (fun n _ _ _ => by simp)
  have hb : ∑ n ∈ range A, w n * (|mu n| / 2 * (if 0 < mu n then (0 : K) else 0) ^ 2) = 0 :=
    sum_eq_zero fun n _ => by simp
  rw [hb, add_zero] at hE
  -- dissipation dominates the moments
  have h1 : momentEnergy N L dx sigma (momentOf A w P e)
      ≤ ∑ n ∈ range A, w n * ∑ i ∈ range N, dx i * (sigma i * ((e n i + e n (i + 1)) / 2) ^ 2) := by
    have : ∑ n ∈ range A, w n * ∑ i ∈ range N, dx i * (sigma i * ((e n i + e n (i + 1)) / 2) ^ 2)
        = ∑ i ∈ range N, dx i * (sigma i * ∑ n ∈ range A, w n * ((e n i + e n (i + 1)) / 2) ^ 2) := by
      simp only [mul_sum]
      rw [sum_comm]
      exact sum_congr rfl fun i _ => sum_congr rfl fun n _ => by ring
    rw [this]
    refine sum_le_sum fun i hi => ?_
    have hi := mem_range.mp hi
    exact mul_le_mul_of_nonneg_left (mul_le_mul_of_nonneg_left (bessel (x := fun n => (e n i + e n (i + 1)) / 2) hw hP)
      (hphys i hi).2) (hphys i hi).1.le
  -- work of the source
  have h2 : ∑ n ∈ range A, w n * ∑ i ∈ range N, dx i *
        ((∑ l ∈ range L, (2 * (l : K) + 1) * s i l * d i l * P l n) * ((e n i + e n (i + 1)) / 2))
      = ∑ i ∈ range N, dx i * ∑ l ∈ range L, (2 * (l : K) + 1) * s i l * d i l * momentOf A w P e i l := by
    unfold momentOf scalarCenter
    simp only [mul_sum, sum_mul]
    rw [sum_comm]
    refine sum_congr rfl fun i _ => ?_
    rw [sum_comm]
    exact sum_congr rfl fun l _ => sum_congr rfl fun n _ => by ring
  have h3 : ∑ i ∈ range N, dx i * ∑ l ∈ range L, (2 * (l : K) + 1) * s i l * d i l * momentOf A w P e i l
      ≤ (c ^ 2 * momentEnergy N L dx sigma d + momentEnergy N L dx sigma (momentOf A w P e)) / 2 := by
    unfold momentEnergy
    rw [mul_sum, ← sum_add_distrib, sum_div]
    refine sum_le_sum fun i hi => ?_
    have hi := mem_range.mp hi
    have : (c ^ 2 * (dx i * (sigma i * ∑ l ∈ range L, (2 * (l : K) + 1) * d i l ^ 2))
          + dx i * (sigma i * ∑ l ∈ range L, (2 * (l : K) + 1) * momentOf A w P e i l ^ 2)) / 2
        = dx i * ∑ l ∈ range L, (2 * (l : K) + 1) *
          (sigma i * (c ^ 2 * d i l ^ 2 + momentOf A w P e i l ^ 2) / 2) := by
      have : ∑ l ∈ range L, (2 * (l : K) + 1) * (sigma i * (c ^ 2 * d i l ^ 2 + momentOf A w P e i l ^ 2) / 2)
          = (sigma i * c ^ 2 / 2) * ∑ l ∈ range L, (2 * (l : K) + 1) * d i l ^ 2
            + (sigma i / 2) * ∑ l ∈ range L, (2 * (l : K) + 1) * momentOf A w P e i l ^ 2 := by
        rw [mul_sum, mul_sum, ← sum_add_distrib]
        exact sum_congr rfl fun l _ => by ring
      rw [this]; ring
    rw [this]
    refine mul_le_mul_of_nonneg_left (sum_le_sum fun l hl => ?_) (hphys i hi).1.le
    have hsl := hs i hi l (mem_range.mp hl)
    have hsig := (hphys i hi).2
    set a := d i l
    set b := momentOf A w P e i l
    have k1 : s i l * (a * b) ≤ c * sigma i * (|a| * |b|) := by
      calc s i l * (a * b) ≤ |s i l * (a * b)| := le_abs_self _
        _ = |s i l| * (|a| * |b|) := by rw [abs_mul, abs_mul]
        _ ≤ c * sigma i * (|a| * |b|) := mul_le_mul_of_nonneg_right hsl (by positivity)
    have k2 : c * (|a| * |b|) ≤ (c ^ 2 * a ^ 2 + b ^ 2) / 2 := by
      have := sq_nonneg (c * |a| - |b|)
      rw [← sq_abs a, ← sq_abs b]
      nlinarith
    calc (2 * (l : K) + 1) * s i l * a * b = (2 * (l : K) + 1) * (s i l * (a * b)) := by ring
      _ ≤ (2 * (l : K) + 1) * (sigma i * (c ^ 2 * a ^ 2 + b ^ 2) / 2) := by
          refine mul_le_mul_of_nonneg_left ?_ (by positivity)
          calc s i l * (a * b) ≤ c * sigma i * (|a| * |b|) := k1
            _ = sigma i * (c * (|a| * |b|)) := by ring
            _ ≤ sigma i * ((c ^ 2 * a ^ 2 + b ^ 2) / 2) := mul_le_mul_of_nonneg_left k2 hsig
            _ = _ := by ring
  rw [h2] at hE
  linarith

/-- The transport equation with Legendre-expanded within-group scattering `s i l` (cell, moment), a given isotropic
source `off`, external and boundary sources: `psi` are the edge fluxes. -/
structure WithinGroup (N A L : ℕ) (mu w dx sigma : ℕ → K) (P : ℕ → ℕ → K) (s : ℕ → ℕ → K) (off : ℕ → K)
    (external boundary : Arr2 K) (bcL bcR : Bool) (psi : ℕ → ℕ → K) : Prop where
  balance : AllBalanced N A mu dx sigma (fun n i =>
    (∑ l ∈ range L, (2 * (l : K) + 1) * s i l * momentOf A w P psi i l * P l n)
      + external.val i (bidx external.angles n) + off i) psi
  inflow : SweptInflow N A mu bcL bcR (fun n => boundary.val 0 (bidx boundary.angles n))
    (fun n => boundary.val 1 (bidx boundary.angles n)) psi

/-- Data under which the anisotropic iteration is damped: no condition on the cell widths. -/
structure AnisoDamped (N A L : ℕ) (mu w dx sigma : ℕ → K) (P : ℕ → ℕ → K) (s : ℕ → ℕ → K) (bcL bcR : Bool)
    (c : K) : Prop where
  nonzero : ∀ n < A, mu n ≠ 0
  phys : Physical N dx sigma
  weights : ∀ n < A, 0 ≤ w n
  even : EvenReflection A mu w bcL bcR
  legendre : LegendreExact A L w P
  ratio : ∀ i < N, ∀ l < L, |s i l| ≤ c * sigma i

/-- Difference of two sweeps whose scattering sources come from different moments. -/
theorem aniso_difference {N A L : ℕ} {mu w dx sigma : ℕ → K} {P : ℕ → ℕ → K} {s m m' e e' : ℕ → ℕ → K} {off : ℕ → K}
    {external boundary : Arr2 K} {bcL bcR : Bool} {c : K} (hc : 0 ≤ c)
    (hd : AnisoDamped N A L mu w dx sigma P s bcL bcR c)
    (h : AllBalanced N A mu dx sigma (fun n i => (∑ l ∈ range L, (2 * (l : K) + 1) * s i l * m i l * P l n)
      + external.val i (bidx external.angles n) + off i) e)
    (h' : AllBalanced N A mu dx sigma (fun n i => (∑ l ∈ range L, (2 * (l : K) + 1) * s i l * m' i l * P l n)
      + external.val i (bidx external.angles n) + off i) e')
    (hin : SweptInflow N A mu bcL bcR (fun n => boundary.val 0 (bidx boundary.angles n))
      (fun n => boundary.val 1 (bidx boundary.angles n)) e)
    (hin' : SweptInflow N A mu bcL bcR (fun n => boundary.val 0 (bidx boundary.angles n))
      (fun n => boundary.val 1 (bidx boundary.angles n)) e') :
    momentEnergy N L dx sigma (fun i l => momentOf A w P e i l - momentOf A w P e' i l)
      ≤ c ^ 2 * momentEnergy N L dx sigma (fun i l => m i l - m' i l) := by
  obtain ⟨hb, hi⟩ := swept_sub h h' hin hin'
  have := aniso_sweep_contracts (d := fun i l => m i l - m' i l) hc hd.weights hd.even hd.nonzero hd.phys hd.legendre
    hd.ratio (fun n hn i hi => by
      rw [hb n hn i hi]
      beta_reduce
      have : ∑ l ∈ range L, (2 * (l : K) + 1) * s i l * (m i l - m' i l) * P l n
          = (∑ l ∈ range L, (2 * (l : K) + 1) * s i l * m i l * P l n)
            - ∑ l ∈ range L, (2 * (l : K) + 1) * s i l * m' i l * P l n := by
        rw [← sum_sub_distrib]
        exact sum_congr rfl fun l _ => by ring
      rw [this]; ring) hi
  refine le_of_eq_of_le (momentEnergy_congr fun i _ l _ => ?_) this
  unfold momentOf
  rw [scalarCenter_sub]

/-- A sweep exists for every source and boundary source. -/
theorem sweep_exists {N A : ℕ} {mu dx sigma : ℕ → K} (bcL bcR : Bool) (q : ℕ → ℕ → K) (boundary : Arr2 K)
    (hne : ∀ n < A, mu n ≠ 0) (hphys : Physical N dx sigma) :
    ∃ e, AllBalanced N A mu dx sigma q e ∧ SweptInflow N A mu bcL bcR
      (fun n => boundary.val 0 (bidx boundary.angles n)) (fun n => boundary.val 1 (bidx boundary.angles n)) e := by
  obtain ⟨_, _, psi, _, h2, h3, _, _⟩ := anisotropicSweep_spec (N := N) (A := A) (L := 0) sigma (fun _ _ => 0)
    (fun _ => 0) ⟨A, fun i n => q n i⟩ boundary (fun i => i) dx mu (fun _ => 0) bcL bcR false (fun _ _ => 0)
    (fun _ _ => 0) (fun _ => 0, fun _ _ => 0) hne hphys
  refine ⟨psi, fun n hn i hi => ?_, h3⟩
  have := h2 n hn i hi
  simp only [sum_range_zero, zero_add, add_zero, bidx_full _ _ hn] at this
  exact this

/-- Where the energy vanishes the moments are zero, in every cell that interacts. -/
theorem moments_zero {N L : ℕ} {dx sigma : ℕ → K} {mo : ℕ → ℕ → K} (hphys : Physical N dx sigma)
    (h : momentEnergy N L dx sigma mo ≤ 0) (i : ℕ) (hi : i < N) (hs : sigma i ≠ 0) (l : ℕ) (hl : l < L) : mo i l = 0 := by
  have hsig : 0 < sigma i := lt_of_le_of_ne (hphys i hi).2 (Ne.symm hs)
  have h0 : ∀ j ∈ range N, 0 ≤ dx j * (sigma j * ∑ l ∈ range L, (2 * (l : K) + 1) * mo j l ^ 2) := fun j hj =>
    mul_nonneg (hphys j (mem_range.mp hj)).1.le (mul_nonneg (hphys j (mem_range.mp hj)).2
      (sum_nonneg fun l _ => by positivity))
  have h1 := (sum_eq_zero_iff_of_nonneg h0).mp (le_antisymm h (sum_nonneg h0)) i (mem_range.mpr hi)
  have h2 : ∑ l ∈ range L, (2 * (l : K) + 1) * mo i l ^ 2 = 0 := by
    rcases mul_eq_zero.mp h1 with h | h
    · exact absurd h (hphys i hi).1.ne'
    · rcases mul_eq_zero.mp h with h | h
      · exact absurd h hs
      · exact h
  have hnn : ∀ l ∈ range L, 0 ≤ (2 * (l : K) + 1) * mo i l ^ 2 := fun l _ => by positivity
  have h3 := (sum_eq_zero_iff_of_nonneg hnn).mp h2 l (mem_range.mpr hl)
  rcases mul_eq_zero.mp h3 with h | h
  · have : (0 : K) < 2 * (l : K) + 1 := by positivity
    exact absurd h this.ne'
  · exact pow_eq_zero_iff two_ne_zero |>.mp h

/-- C157: with within-group scattering ratio `c < 1` in every Legendre order, the one-group anisotropic transport
equation has at most one solution, whatever the mesh. -/
theorem C157_unique {N A L : ℕ} {mu w dx sigma : ℕ → K} {P s : ℕ → ℕ → K} {off : ℕ → K} {external boundary : Arr2 K}
    {bcL bcR : Bool} {c : K} (hc : 0 ≤ c) (hc1 : c < 1) (hd : AnisoDamped N A L mu w dx sigma P s bcL bcR c)
    {psi psi' : ℕ → ℕ → K} (h : WithinGroup N A L mu w dx sigma P s off external boundary bcL bcR psi)
    (h' : WithinGroup N A L mu w dx sigma P s off external boundary bcL bcR psi') :
    ∀ n < A, ∀ i ≤ N, psi n i = psi' n i := by
  have h1 := aniso_difference hc hd h.balance h'.balance h.inflow h'.inflow
  set E := momentEnergy N L dx sigma (fun i l => momentOf A w P psi i l - momentOf A w P psi' i l) with hE
  have hE0 : 0 ≤ E := momentEnergy_nonneg hd.phys _
  have hEz : E ≤ 0 := by
    by_contra hp
    push Not at hp
    have : c ^ 2 < 1 := by nlinarith
    nlinarith
  have hz := moments_zero hd.phys hEz
  refine swept_unique hd.nonzero hd.phys h.balance (fun n hn i hi => ?_) h.inflow h'.inflow
  rw [h'.balance n hn i hi]
  beta_reduce
  suffices hsum : ∀ l ∈ range L, (2 * (l : K) + 1) * s i l * momentOf A w P psi' i l * P l n
      = (2 * (l : K) + 1) * s i l * momentOf A w P psi i l * P l n by rw [sum_congr rfl hsum]
  intro l hl
  by_cases hs : sigma i = 0
  · have := hd.ratio i hi l (mem_range.mp hl)
    rw [hs, mul_zero] at this
    rw [abs_nonpos_iff.mp this]; ring
  · have := hz i hi hs l (mem_range.mp hl)
    rw [sub_eq_zero.mp this]

/-- Extension of a moment vector by zero. -/
def extendMoments (N L : ℕ) (v : Fin N × Fin L → K) : ℕ → ℕ → K := fun i l =>
  if h : i < N ∧ l < L then v (⟨i, h.1⟩, ⟨l, h.2⟩) else 0

/-- Scattering source of the moments `v`. -/
def momentSource (N L : ℕ) (P s : ℕ → ℕ → K) (v : Fin N × Fin L → K) (n i : ℕ) : K :=
  ∑ l ∈ range L, (2 * (l : K) + 1) * s i l * extendMoments N L v i l * P l n

theorem momentSource_add (N L : ℕ) (P s : ℕ → ℕ → K) (v u : Fin N × Fin L → K) (n i : ℕ) :
    momentSource N L P s (v + u) n i = momentSource N L P s v n i + momentSource N L P s u n i := by
  unfold momentSource
  rw [← sum_add_distrib]
  refine sum_congr rfl fun l _ => ?_
  unfold extendMoments
  split_ifs
  · rw [Pi.add_apply]; ring
  · ring

theorem momentSource_smul (N L : ℕ) (P s : ℕ → ℕ → K) (a : K) (v : Fin N × Fin L → K) (n i : ℕ) :
    momentSource N L P s (a • v) n i = a * momentSource N L P s v n i := by
  unfold momentSource
  rw [mul_sum]
  refine sum_congr rfl fun l _ => ?_
  unfold extendMoments
  split_ifs
  · rw [Pi.smul_apply, smul_eq_mul]; ring
  · ring

/-- The vacuum boundary without sources. -/
def noInflow : Arr2 K := ⟨1, fun _ _ => 0⟩

/-- Angular fluxes caused by the scattering of `v`. -/
noncomputable def momentResponse {N A L : ℕ} {mu dx sigma : ℕ → K} (P s : ℕ → ℕ → K) (bcL bcR : Bool)
    (hne : ∀ n < A, mu n ≠ 0) (hphys : Physical N dx sigma) (v : Fin N × Fin L → K) : ℕ → ℕ → K :=
  (sweep_exists bcL bcR (momentSource N L P s v) noInflow hne hphys).choose

theorem momentResponse_spec {N A L : ℕ} {mu dx sigma : ℕ → K} (P s : ℕ → ℕ → K) (bcL bcR : Bool)
    (hne : ∀ n < A, mu n ≠ 0) (hphys : Physical N dx sigma) (v : Fin N × Fin L → K) :
    AllBalanced N A mu dx sigma (momentSource N L P s v) (momentResponse P s bcL bcR hne hphys v) ∧
      SweptInflow N A mu bcL bcR (fun _ => 0) (fun _ => 0) (momentResponse P s bcL bcR hne hphys v) :=
  (sweep_exists bcL bcR (momentSource N L P s v) noInflow hne hphys).choose_spec

theorem momentOf_add (A : ℕ) (w : ℕ → K) (P e e' : ℕ → ℕ → K) (i l : ℕ) :
    momentOf A w P (fun n i => e n i + e' n i) i l = momentOf A w P e i l + momentOf A w P e' i l := by
  unfold momentOf scalarCenter
  rw [← sum_add_distrib]
  exact sum_congr rfl fun n _ => by ring

theorem momentOf_smul (A : ℕ) (w : ℕ → K) (P e : ℕ → ℕ → K) (a : K) (i l : ℕ) :
    momentOf A w P (fun n i => a * e n i) i l = a * momentOf A w P e i l := by
  unfold momentOf scalarCenter
  rw [mul_sum]
  exact sum_congr rfl fun n _ => by ring

theorem momentOf_congr {N A : ℕ} {w : ℕ → K} {P e e' : ℕ → ℕ → K} (h : ∀ n < A, ∀ i ≤ N, e n i = e' n i)
    (i : ℕ) (hi : i < N) (l : ℕ) : momentOf A w P e i l = momentOf A w P e' i l := by
  unfold momentOf scalarCenter
  exact sum_congr rfl fun n hn => by rw [h n (mem_range.mp hn) i hi.le, h n (mem_range.mp hn) (i + 1) hi]

/-- One sweep of the scattering source, as a linear map on the flux moments. -/
noncomputable def momentMap {N A : ℕ} (L : ℕ) {mu dx sigma : ℕ → K} (w : ℕ → K) (P s : ℕ → ℕ → K) (bcL bcR : Bool)
    (hne : ∀ n < A, mu n ≠ 0) (hphys : Physical N dx sigma) : (Fin N × Fin L → K) →ₗ[K] (Fin N × Fin L → K) where
  toFun v := fun a => momentOf A w P (momentResponse P s bcL bcR hne hphys v) a.1 a.2
  map_add' v u := by
    funext a
    obtain ⟨h1, h2⟩ := momentResponse_spec P s bcL bcR hne hphys (v + u)
    obtain ⟨h3, h4⟩ := momentResponse_spec P s bcL bcR hne hphys v
    obtain ⟨h5, h6⟩ := momentResponse_spec P s bcL bcR hne hphys u
    rw [Pi.add_apply, ← momentOf_add]
    refine momentOf_congr (swept_unique hne hphys h1 (fun n hn i hi => ?_) h2
      (by simpa using sweptInflow_add h4 h6)) _ a.1.2 _
    rw [momentSource_add]
    linear_combination h3 n hn i hi + h5 n hn i hi
  map_smul' b v := by
    funext a
    obtain ⟨h1, h2⟩ := momentResponse_spec P s bcL bcR hne hphys (b • v)
    obtain ⟨h3, h4⟩ := momentResponse_spec P s bcL bcR hne hphys v
    rw [Pi.smul_apply, smul_eq_mul, RingHom.id_apply, ← momentOf_smul]
    refine momentOf_congr (swept_unique hne hphys h1 (fun n hn i hi => ?_) h2
      (by simpa using sweptInflow_smul b h4)) _ a.1.2 _
    rw [momentSource_smul]
    linear_combination b * h3 n hn i hi

/-- C157: ... and it has a solution, for all sources and boundary data. -/
theorem C157_exists {N A L : ℕ} {mu w dx sigma : ℕ → K} {P s : ℕ → ℕ → K} (off : ℕ → K) (external boundary : Arr2 K)
    {bcL bcR : Bool} {c : K} (hc : 0 ≤ c) (hc1 : c < 1) (hd : AnisoDamped N A L mu w dx sigma P s bcL bcR c) :
    ∃ psi, WithinGroup N A L mu w dx sigma P s off external boundary bcL bcR psi := by
  have hne := hd.nonzero
  have hphys := hd.phys
  have hinj : Function.Injective ⇑((LinearMap.id : (Fin N × Fin L → K) →ₗ[K] _)
      - momentMap L w P s bcL bcR hne hphys) := by
    rw [injective_iff_map_eq_zero]
    intro v hv
    have hv' : ∀ a, v a = momentOf A w P (momentResponse P s bcL bcR hne hphys v) a.1 a.2 := by
      intro a
      have := congrFun hv a
      simp only [LinearMap.sub_apply, LinearMap.id_apply, Pi.sub_apply, Pi.zero_apply] at this
      exact sub_eq_zero.mp this
    obtain ⟨h1, h2⟩ := momentResponse_spec P s bcL bcR hne hphys v
    have hs : WithinGroup N A L mu w dx sigma P s (fun _ => 0) noInflow noInflow bcL bcR
        (momentResponse P s bcL bcR hne hphys v) := by
      refine ⟨fun n hn i hi => ?_, h2⟩
      rw [h1 n hn i hi]
      simp only [noInflow, add_zero]
      unfold momentSource
      refine sum_congr rfl fun l hl => ?_
      have : extendMoments N L v i l = v (⟨i, hi⟩, ⟨l, mem_range.mp hl⟩) := by
        simp [extendMoments, hi, mem_range.mp hl]
      rw [this, hv']
    have h0 : WithinGroup N A L mu w dx sigma P s (fun _ => 0) noInflow noInflow bcL bcR (fun _ _ => 0) :=
      ⟨fun n hn i hi => by simp [momentOf, scalarCenter, noInflow], fun n hn => by simp [inflow, outflow, noInflow]⟩
    have hu := C157_unique hc hc1 hd hs h0
    funext a
    rw [hv', momentOf_congr hu _ a.1.2]
    simp [momentOf, scalarCenter]
  have hsurj := LinearMap.injective_iff_surjective.mp hinj
  obtain ⟨eb, hb1, hb2⟩ := sweep_exists bcL bcR (fun n i => external.val i (bidx external.angles n) + off i)
    boundary hne hphys
  obtain ⟨v, hv⟩ := hsurj fun a => momentOf A w P eb a.1 a.2
  have hv' : ∀ a, v a = momentOf A w P (momentResponse P s bcL bcR hne hphys v) a.1 a.2
      + momentOf A w P eb a.1 a.2 := by
    intro a
    have := congrFun hv a
    simp only [LinearMap.sub_apply, LinearMap.id_apply, Pi.sub_apply] at this
    rw [← this]
    change _ = _ + (_ - momentOf A w P (momentResponse P s bcL bcR hne hphys v) a.1 a.2)
    ring
  obtain ⟨h1, h2⟩ := momentResponse_spec P s bcL bcR hne hphys v
  refine ⟨fun n i => momentResponse P s bcL bcR hne hphys v n i + eb n i, fun n hn i hi => ?_,
    by simpa using sweptInflow_add h2 hb2⟩
  have e : ∑ l ∈ range L, (2 * (l : K) + 1) * s i l
      * momentOf A w P (fun n i => momentResponse P s bcL bcR hne hphys v n i + eb n i) i l * P l n
      = momentSource N L P s v n i := by
    unfold momentSource
    refine sum_congr rfl fun l hl => ?_
    have : extendMoments N L v i l = v (⟨i, hi⟩, ⟨l, mem_range.mp hl⟩) := by
      simp [extendMoments, hi, mem_range.mp hl]
    rw [this, hv', momentOf_add]
  beta_reduce
  rw [e]
  linear_combination h1 n hn i hi + hb1 n hn i hi

/-- C157: the within-group iteration of the anisotropic slab solver converges geometrically to the solution of the
transport equation with Legendre-expanded scattering, on every mesh: after `sweeps` sweeps the energy of the flux error
is at most `c^(2 sweeps)` times the initial one. -/
theorem C157_aniso_converges {N A L : ℕ} (conv : (ℕ → K) → (ℕ → K) → Bool) (xsTotal : ℕ → K) (xs : ℕ → ℕ → K)
    (off : ℕ → K) (external boundary : Arr2 K) (mm : ℕ → ℕ) (dx mu w : ℕ → K) (bcL bcR : Bool) (P : ℕ → ℕ → K)
    (guess : ℕ → K) {c : K} (hc : 0 ≤ c) (hL : 0 < L) (hP0 : ∀ n < A, P 0 n = 1)
    (hd : AnisoDamped N A L mu w dx (fun i => xsTotal (mm i)) P xs bcL bcR c) {psi : ℕ → ℕ → K}
    (h : WithinGroup N A L mu w dx (fun i => xsTotal (mm i)) P xs off external boundary bcL bcR psi) :
    ∃ (flux : ℕ → K) (sweeps : ℕ), 1 ≤ sweeps ∧ sweeps ≤ 100 ∧
      anisotropicSn N A L conv xsTotal (fun i l => xs i l * (2 * (l : K) + 1)) off external boundary mm dx mu w bcL bcR
        false P (fun l n => w n * P l n) guess = .ok flux ∧
      (sweeps < 100 → ∃ prev, conv flux prev = true) ∧
      ∑ i ∈ range N, dx i * (xsTotal (mm i) * (flux i - scalarCenter A w psi i) ^ 2)
        ≤ c ^ (2 * sweeps) * ∑ i ∈ range N, dx i * (xsTotal (mm i) * ((guess i - scalarCenter A w psi i) ^ 2
          + ∑ l ∈ Ico 1 L, (2 * (l : K) + 1) * scalarCenter A (fun n => w n * P l n) psi i ^ 2)) := by
  obtain ⟨x, k, hk1, hk2, hx0, hstep, hrun, hconv, _⟩ := C18_within_group_stops_aniso (N := N) (A := A) (L := L) conv
    xsTotal (fun i l => xs i l * (2 * (l : K) + 1)) off external boundary mm dx mu w bcL bcR false P
    (fun l n => w n * P l n) guess hd.nonzero hd.phys
  -- each sweep: the flux is the zeroth moment and the moments contract
  have key : ∀ j < k, (∀ i < N, (x (j + 1)).1 i = (x (j + 1)).2 i 0) ∧
      momentEnergy N L dx (fun i => xsTotal (mm i)) (fun i l => (x (j + 1)).2 i l - momentOf A w P psi i l)
        ≤ c ^ 2 * momentEnergy N L dx (fun i => xsTotal (mm i)) (fun i l => (x j).2 i l - momentOf A w P psi i l) := by
    intro j hj
    obtain ⟨f, m, e, h1, h2, h3, h4, h5⟩ := anisotropicSweep_spec (N := N) (A := A) (L := L) xsTotal
      (fun i l => xs i l * (2 * (l : K) + 1)) off external boundary mm dx mu w bcL bcR false P
      (fun l n => w n * P l n) (x j) hd.nonzero hd.phys
    have hx : x (j + 1) = (f, m) := Except.ok.inj ((hstep j hj).symm.trans h1)
    rw [hx]
    refine ⟨fun i hi => ?_, ?_⟩
    · show f i = m i 0
      rw [h4 i, h5 i hi 0]
      simp only [Bool.false_eq_true, if_false, hi, if_true]
      unfold scalarCenter
      exact sum_congr rfl fun n hn => by beta_reduce; rw [hP0 n (mem_range.mp hn), mul_one]
    · have hb : AllBalanced N A mu dx (fun i => xsTotal (mm i))
          (fun n i => (∑ l ∈ range L, (2 * (l : K) + 1) * xs i l * (x j).2 i l * P l n)
            + external.val i (bidx external.angles n) + off i) e := fun n hn i hi => by
        rw [h2 n hn i hi]
        have : ∑ l ∈ range L, xs i l * (2 * (l : K) + 1) * (x j).2 i l * P l n
            = ∑ l ∈ range L, (2 * (l : K) + 1) * xs i l * (x j).2 i l * P l n := sum_congr rfl fun l _ => by ring
        beta_reduce
        rw [this]
      have hd2 := aniso_difference (m := (x j).2) (m' := momentOf A w P psi) (e := e) (e' := psi) hc hd
        hb h.balance h3 h.inflow
      refine le_of_eq_of_le (momentEnergy_congr fun i hi l _ => ?_) hd2
      show m i l - _ = _
      rw [h5 i hi l]; rfl
  have hall : ∀ j ≤ k, momentEnergy N L dx (fun i => xsTotal (mm i)) (fun i l => (x j).2 i l - momentOf A w P psi i l)
      ≤ c ^ (2 * j) * momentEnergy N L dx (fun i => xsTotal (mm i))
        (fun i l => (x 0).2 i l - momentOf A w P psi i l) := by
    intro j
    induction j with
    | zero => intro _; simp
    | succ j ih =>
      intro hj
      refine (key j (by omega)).2.trans ?_
      calc _ ≤ c ^ 2 * (c ^ (2 * j) * _) := mul_le_mul_of_nonneg_left (ih (by omega)) (by positivity)
        _ = _ := by ring
  have hmu0 : ∀ i, momentOf A w P psi i 0 = scalarCenter A w psi i := by
    intro i
    unfold momentOf scalarCenter
    exact sum_congr rfl fun n hn => by beta_reduce; rw [hP0 n (mem_range.mp hn), mul_one]
  refine ⟨(x k).1, k, hk1, hk2, hrun, fun hlt => ⟨_, hconv hlt⟩, ?_⟩
  have hfin := hall k le_rfl
  obtain ⟨k', rfl⟩ : ∃ k', k = k' + 1 := ⟨k - 1, by omega⟩
  have hflux := (key k' (by omega)).1
  refine le_trans ?_ (hfin.trans (le_of_eq ?_))
  · unfold momentEnergy
    refine sum_le_sum fun i hi => ?_
    have hi := mem_range.mp hi
    refine mul_le_mul_of_nonneg_left (mul_le_mul_of_nonneg_left ?_ (hd.phys i hi).2) (hd.phys i hi).1.le
    refine le_trans (le_of_eq ?_) (single_le_sum (f := fun l : ℕ => (2 * (l : K) + 1) *
      ((x (k' + 1)).2 i l - momentOf A w P psi i l) ^ 2) (fun l _ => by positivity) (mem_range.mpr hL))
    beta_reduce
    rw [hflux i hi, hmu0]; simp
  · congr 1
    unfold momentEnergy
    refine sum_congr rfl fun i _ => ?_
    congr 2
    rw [range_eq_Ico, sum_eq_sum_Ico_succ_bot hL, hx0, zero_add]
    congr 1
    · simp [hmu0]
    · refine sum_congr rfl fun l hl => ?_
      have : l ≠ 0 := by have := (mem_Ico.mp hl).1; omega
      simp [this, momentOf]


/-! ### A concrete problem: four directions whose weights integrate the first two Legendre polynomials -/

/-- Directions `±1/3` and `±2/3`. -/
def exSixths (n : ℕ) : ℚ := if n = 0 then -2 / 3 else if n = 1 then -1 / 3 else if n = 2 then 1 / 3 else 2 / 3

/-- Weights `1/6` and `1/3`. -/
def exSixthsW (n : ℕ) : ℚ := if n = 0 ∨ n = 3 then 1 / 3 else 1 / 6

/-- `P_0 = 1`, `P_1 = mu`. -/
def exLegendre (l n : ℕ) : ℚ := if l = 0 then 1 else exSixths n

theorem exAnisoDamped : AnisoDamped 3 4 2 exSixths exSixthsW (fun i => (i : ℚ) + 50) (fun i => (i : ℚ) + 1) exLegendre
    (fun i l => if l = 0 then ((i : ℚ) + 1) / 2 else -1 / 2) true false (1 / 2) where
  nonzero := fun n hn => by interval_cases n <;> norm_num [exSixths]
  phys := fun i _ => ⟨by positivity, by positivity⟩
  weights := fun n _ => by unfold exSixthsW; split <;> norm_num
  even := by
    intro n hn h1 h2
    interval_cases n <;> first | omega | norm_num [exSixths, exSixthsW]
  legendre := by
    intro l hl m hm
    interval_cases l <;> interval_cases m <;> norm_num [sum_range_succ, exLegendre, exSixths, exSixthsW]
  ratio := fun i _ l _ => by
    have : (0 : ℚ) ≤ i := by positivity
    split
    · rw [abs_of_nonneg (by positivity)]; linarith
    · rw [abs_le]; constructor <;> linarith

example := C157_exists (fun i => (i : ℚ)) ⟨1, fun i _ => (i : ℚ)⟩ ⟨1, fun i _ => (i : ℚ) + 2⟩ (by norm_num) (by norm_num)
  exAnisoDamped

example {psi psi' : ℕ → ℕ → ℚ} (h : WithinGroup 3 4 2 _ _ _ _ _ _ (fun i => (i : ℚ)) ⟨1, fun i _ => (i : ℚ)⟩
    ⟨1, fun i _ => (i : ℚ) + 2⟩ _ _ psi) (h' : WithinGroup 3 4 2 _ _ _ _ _ _ (fun i => (i : ℚ)) ⟨1, fun i _ => (i : ℚ)⟩
    ⟨1, fun i _ => (i : ℚ) + 2⟩ _ _ psi') :=
  C157_unique (by norm_num) (by norm_num) exAnisoDamped h h'

example {psi : ℕ → ℕ → ℚ} (h : WithinGroup 3 4 2 _ _ _ _ _ _ (fun i => (i : ℚ)) ⟨1, fun i _ => (i : ℚ)⟩
    ⟨1, fun i _ => (i : ℚ) + 2⟩ _ _ psi) :=
  C157_aniso_converges (fluxConverged 3 (1 / 1000)) (fun m => (m : ℚ) + 1)
    (fun i l => if l = 0 then ((i : ℚ) + 1) / 2 else -1 / 2) (fun i => (i : ℚ)) ⟨1, fun i _ => (i : ℚ)⟩
    ⟨1, fun i _ => (i : ℚ) + 2⟩ (fun i => i) (fun i => (i : ℚ) + 50) exSixths exSixthsW true false exLegendre
    (fun _ => 3) (by norm_num) (by norm_num) (fun _ _ => rfl) exAnisoDamped h

end Discrete1.Props
