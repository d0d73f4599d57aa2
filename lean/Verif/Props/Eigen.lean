import Verif.Props.Compare
import Verif.Props.Critical

/-!
# Multiplication factors: C117 (non-negativity), C118 (neutron balance and k-infinity bound),
C119 (dominance and uniqueness), C120 (bracketing by the power iteration)
-/

set_option linter.unusedSectionVars false
set_option linter.unusedSimpArgs false

namespace Discrete1.Props

open Finset Discrete1.Spec Discrete1.Slab Discrete1.Tools Discrete1.MultiGroup Discrete1.Drivers
open Discrete1.Critical

variable {K : Type} [Field K] [LinearOrder K] [IsStrictOrderedRing K]

/-- The fission matrix has no negative entry in the slab. -/
def EmissionNonneg (p : Problem K) (F : ℕ → ℕ → ℕ → K) : Prop :=
  ∀ i < p.cells, ∀ g < p.groups, ∀ g' < p.groups, 0 ≤ F (p.mm i) g g'

theorem totalProduction_mono {p : Problem K} {F : ℕ → ℕ → ℕ → K} (hF : EmissionNonneg p F) {a b : ℕ → ℕ → K}
    (h : ∀ i < p.cells, ∀ g < p.groups, a i g ≤ b i g) : totalProduction p F a ≤ totalProduction p F b :=
  sum_le_sum fun i hi => sum_le_sum fun g hg => sum_le_sum fun g' hg' =>
    mul_le_mul_of_nonneg_left (h i (mem_range.mp hi) g' (mem_range.mp hg'))
      (hF i (mem_range.mp hi) g (mem_range.mp hg) g' (mem_range.mp hg'))

theorem totalProduction_nonneg {p : Problem K} {F : ℕ → ℕ → ℕ → K} (hF : EmissionNonneg p F) {a : ℕ → ℕ → K}
    (h : ∀ i < p.cells, ∀ g < p.groups, 0 ≤ a i g) : 0 ≤ totalProduction p F a :=
  sum_nonneg fun i hi => sum_nonneg fun g hg => sum_nonneg fun g' hg' =>
    mul_nonneg (hF i (mem_range.mp hi) g (mem_range.mp hg) g' (mem_range.mp hg'))
      (h i (mem_range.mp hi) g' (mem_range.mp hg'))

/-! ## C117 -/

/-- C117: started from a non-negative random flux (`np.random.rand`), on fine meshes with non-negative
scattering and fission, every iterate of `power_iteration` - in particular the returned one - has a
non-negative flux and a non-negative `keff`; `keff` is positive as long as the iterates so far produce fission
neutrons at all. -/
theorem C117_power_iteration_nonneg (p : Problem K) (norm : (ℕ → ℕ → K) → K)
    (conv : (ℕ → ℕ → K) → (ℕ → ℕ → K) → Bool) (xsTotal : ℕ → ℕ → K) (xs : ℕ → ℕ → ℕ → K)
    (fission : Fission K) (random : ℕ → ℕ → K) (ht : Tame p xsTotal xs) (hG : 0 < p.groups)
    (hf : FissionNonneg p.groups fission) (hF : EmissionNonneg p (fissionMatrix fission))
    (hnorm : ∀ f, 0 ≤ norm f) (hrandom : ∀ i < p.cells, ∀ g < p.groups, 0 ≤ random i g) :
    ∃ x n, Run (powerStep p norm xsTotal (.iso xs) fission) (fun a b => conv a.flux b.flux) 100
        (start norm random) x n ∧
      powerIteration p norm conv xsTotal (.iso xs) fission random = .ok (x n, n) ∧
      ∀ j ≤ n, (∀ i < p.cells, ∀ g < p.groups, 0 ≤ (x j).flux i g) ∧ 0 ≤ (x j).keff ∧
        (0 < norm random → (∀ l < j, ∀ flux, sourceIteration p xsTotal (.iso xs)
            (fissionSource p.groups p.mm fission (x l).flux (x l).keff) zeroBoundary (x l).flux = .ok flux →
            totalProduction p (fissionMatrix fission) flux ≠ 0 ∧
            totalProduction p (fissionMatrix fission) (x l).flux ≠ 0) → 0 < (x j).keff) := by
  obtain ⟨x, n, hr, he⟩ := C27_power_iteration_stops p norm conv xsTotal (.iso xs) fission random ht.ok
  refine ⟨x, n, hr, he, fun j => ?_⟩
  induction j with
  | zero =>
    intro _
    rw [hr.start]
    refine ⟨fun i hi g hg => div_nonneg (hrandom i hi g hg) (abs_nonneg _), hnorm _, fun h _ => h⟩
  | succ j ih =>
    intro hj
    obtain ⟨h1, h2, h3⟩ := ih (by omega)
    obtain ⟨flux, k1, k2⟩ := powerStep_ok p norm xsTotal (.iso xs) fission ht.ok (x j)
    rw [hr.steps j (by omega)] at k2
    have k2 := Except.ok.inj k2
    obtain ⟨o, k3, k4⟩ := C16_source_iteration_nonneg p xsTotal xs
      (fissionSource p.groups p.mm fission (x j).flux (x j).keff) zeroBoundary (x j).flux ht.ok
      (ht.ok 0 hG).slab ht.fine (fun g hg => ⟨ht.weights, fun n hn i hi => by
        have := fissionSource_val p fission hf (x j).flux (x j).keff i n g hg
        show 0 ≤ (fissionSource p.groups p.mm fission (x j).flux (x j).keff).val i
          (bidx (fissionSource p.groups p.mm fission (x j).flux (x j).keff).angles n)
          (bidx (fissionSource p.groups p.mm fission (x j).flux (x j).keff).groups g)
        rw [this]
        refine div_nonneg (sum_nonneg fun g' hg' => ?_) h2
        exact mul_nonneg (hF i hi g hg g' (mem_range.mp hg')) (h1 i hi g' (mem_range.mp hg')),
        fun _ _ _ => le_refl (0 : K), fun _ _ _ => le_refl (0 : K)⟩) ht.nonneg h1
    have ho : o = flux := by rw [k1] at k3; exact (Except.ok.inj k3).symm
    subst ho
    rw [k2]
    have hP1 := totalProduction_nonneg hF k4
    have hP0 := totalProduction_nonneg hF h1
    simp only [updateKeff_eq p fission hf]
    refine ⟨fun i hi g hg => div_nonneg (k4 i hi g hg) (hnorm _),
      div_nonneg (mul_nonneg h2 hP1) hP0, fun hn hpr => ?_⟩
    obtain ⟨q1, q2⟩ := hpr j (by omega) o k1
    exact div_pos (mul_pos (h3 hn fun l hl => hpr l (by omega)) (lt_of_le_of_ne hP1 (Ne.symm q1)))
      (lt_of_le_of_ne hP0 (Ne.symm q2))

/-! ## C118 -/

/-- Fission neutrons born per unit time in the slab, without the factor `1/k`. -/
def fissionNeutrons (p : Problem K) (F : ℕ → ℕ → ℕ → K) (phi : ℕ → ℕ → K) : K :=
  ∑ i ∈ range p.cells, p.dx i * ∑ g ∈ range p.groups, ∑ g' ∈ range p.groups, F (p.mm i) g g' * phi i g'

/-- Neutrons absorbed: collisions minus scattering. -/
def absorbed (p : Problem K) (sigma : ℕ → ℕ → K) (xs : ℕ → ℕ → ℕ → K) (phi : ℕ → ℕ → K) : K :=
  ∑ i ∈ range p.cells, p.dx i * ∑ g' ∈ range p.groups,
    (sigma (p.mm i) g' - ∑ g ∈ range p.groups, xs (p.mm i) g g') * phi i g'

/-- Neutrons lost through the faces. -/
def lost (p : Problem K) (psi : ℕ → ℕ → ℕ → K) : K := ∑ g ∈ range p.groups, netLeakage p psi g

/-- C118: neutron balance of an eigenpair: what fission produces divided by `k` is absorbed or leaks. -/
theorem C118_balance (p : Problem K) (sigma : ℕ → ℕ → K) (xs F : ℕ → ℕ → ℕ → K) (phi : ℕ → ℕ → K) (k : K)
    (psi : ℕ → ℕ → ℕ → K) (hdx : ∀ i < p.cells, p.dx i ≠ 0) (hw : ∑ n ∈ range p.angles, p.angleW n = 1)
    (h : KEigenpair p sigma xs F phi k psi) :
    fissionNeutrons p F phi / k = absorbed p sigma xs phi + lost p psi := by
  have hg : ∀ g ∈ range p.groups, netLeakage p psi g
      + ∑ i ∈ range p.cells, p.dx i * (sigma (p.mm i) g * phi i g)
      = ∑ i ∈ range p.cells, p.dx i * (∑ g' ∈ range p.groups, xs (p.mm i) g g' * phi i g'
        + (∑ g' ∈ range p.groups, F (p.mm i) g g' * phi i g') / k) := by
    intro g hg
    have hg := mem_range.mp hg
    set q : ℕ → K := fun i => ∑ g' ∈ range p.groups, xs (p.mm i) g g' * phi i g'
        + (∑ g' ∈ range p.groups, F (p.mm i) g g' * phi i g') / k with hq
    have hn : ∀ n ∈ range p.angles, p.angleW n * (p.angleX n * (psi g n p.cells - psi g n 0))
        + p.angleW n * ∑ i ∈ range p.cells, sigma (p.mm i) g * p.dx i * ((psi g n i + psi g n (i + 1)) / 2)
        = p.angleW n * ∑ i ∈ range p.cells, p.dx i * q i := by
      intro n hn
      have := balance_total (N := p.cells) (mu := p.angleX n) (dx := p.dx)
        (sigma := fun i => sigma (p.mm i) g) (q := q) (psi := psi g n) hdx
        (fun i hi => h.balance g hg n (mem_range.mp hn) i hi)
      rw [← this]; ring
    have hs := sum_congr (rfl : range p.angles = range p.angles) hn
    rw [sum_add_distrib, ← sum_mul, hw, one_mul] at hs
    rw [← hs]
    congr 1
    · unfold netLeakage
      exact sum_congr rfl fun n _ => by ring
    · simp only [mul_sum]
      rw [sum_comm]
      refine sum_congr rfl fun i hi => ?_
      rw [h.scalar g hg i (mem_range.mp hi), mul_sum, mul_sum]
      exact sum_congr rfl fun n _ => by ring
  have hs := sum_congr (rfl : range p.groups = range p.groups) hg
  simp only [sum_add_distrib, mul_add] at hs
  unfold fissionNeutrons absorbed lost
  have e1 : ∑ i ∈ range p.cells, p.dx i * ∑ g' ∈ range p.groups,
      (sigma (p.mm i) g' - ∑ g ∈ range p.groups, xs (p.mm i) g g') * phi i g'
      = ∑ g ∈ range p.groups, ∑ i ∈ range p.cells, p.dx i * (sigma (p.mm i) g * phi i g)
        - ∑ g ∈ range p.groups, ∑ i ∈ range p.cells,
          p.dx i * ∑ g' ∈ range p.groups, xs (p.mm i) g g' * phi i g' := by
    rw [sum_comm, sum_comm (s := range p.groups), ← sum_sub_distrib]
    refine sum_congr rfl fun i _ => ?_
    rw [← mul_sum, ← mul_sum, ← mul_sub]
    congr 1
    rw [sum_comm, ← sum_sub_distrib]
    refine sum_congr rfl fun g _ => ?_
    rw [sub_mul, sum_mul]
  have e2 : (∑ i ∈ range p.cells, p.dx i * ∑ g ∈ range p.groups, ∑ g' ∈ range p.groups,
      F (p.mm i) g g' * phi i g') / k
      = ∑ g ∈ range p.groups, ∑ i ∈ range p.cells,
          p.dx i * ((∑ g' ∈ range p.groups, F (p.mm i) g g' * phi i g') / k) := by
    rw [sum_comm, sum_div]
    refine sum_congr rfl fun i _ => ?_
    rw [← mul_sum, ← sum_div]
    ring
  rw [e1, e2]
  linear_combination -hs

/-- A slab from which nothing can flow in: no reflecting face, or a symmetric quadrature. -/
def Passive (p : Problem K) : Prop :=
  (p.bcL = false ∧ p.bcR = false) ∨
  ∀ n < p.angles, p.angleX (p.angles - 1 - n) = -p.angleX n ∧ p.angleW (p.angles - 1 - n) = p.angleW n

/-- The leakage of a non-negative flux is not negative. -/
theorem leakage_nonneg {p : Problem K} {psi : ℕ → ℕ → ℕ → K} {g : ℕ} (hne : ∀ n < p.angles, p.angleX n ≠ 0)
    (hw : ∀ n < p.angles, 0 ≤ p.angleW n) (hpas : Passive p)
    (hin : SweptInflow p.cells p.angles p.angleX p.bcL p.bcR (fun _ => 0) (fun _ => 0) (psi g))
    (hpos : ∀ n < p.angles, ∀ i ≤ p.cells, 0 ≤ psi g n i) : 0 ≤ netLeakage p psi g := by
  have hout : ∀ n < p.angles, 0 ≤ outflow p.cells (p.angleX n) (psi g n) := by
    intro n hn
    unfold outflow
    split
    · exact hpos n hn _ le_rfl
    · exact hpos n hn _ (Nat.zero_le _)
  have hcur : netLeakage p psi g = ∑ n ∈ range p.angles, p.angleW n * |p.angleX n| *
      (outflow p.cells (p.angleX n) (psi g n) - inflow p.cells (p.angleX n) (psi g n)) := by
    refine sum_congr rfl fun n hn => ?_
    rcases lt_or_gt_of_ne (hne n (mem_range.mp hn)) with h | h
    · simp only [outflow, inflow, not_lt.mpr h.le, if_false, abs_of_neg h]; ring
    · simp only [outflow, inflow, h, if_true, abs_of_pos h]
  rw [hcur]
  rcases hpas with ⟨hL, hR⟩ | hsym
  · refine sum_nonneg fun n hn => mul_nonneg (mul_nonneg (hw n (mem_range.mp hn)) (abs_nonneg _)) ?_
    have := hin n (mem_range.mp hn)
    have hno : ¬(p.angles - 1 - n < n ∧ leavesReflecting p.bcL p.bcR (p.angleX (p.angles - 1 - n))) := by
      rw [hL, hR]; simp [leavesReflecting]
    simp only [if_neg hno, ite_self, add_zero] at this
    rw [this, sub_zero]
    exact hout n (mem_range.mp hn)
  · have h1 : ∀ n ∈ range p.angles, p.angleW n * |p.angleX n| * inflow p.cells (p.angleX n) (psi g n)
        ≤ p.angleW (p.angles - 1 - n) * |p.angleX (p.angles - 1 - n)| *
          outflow p.cells (p.angleX (p.angles - 1 - n)) (psi g (p.angles - 1 - n)) := by
      intro n hn
      have hn := mem_range.mp hn
      rw [(hsym n hn).2, show |p.angleX (p.angles - 1 - n)| = |p.angleX n| by rw [(hsym n hn).1, abs_neg]]
      refine mul_le_mul_of_nonneg_left ?_ (mul_nonneg (hw n hn) (abs_nonneg _))
      rw [hin n hn]
      simp only [ite_self, zero_add]
      split
      · exact le_rfl
      · exact hout _ (by omega)
    have h2 := sum_le_sum h1
    rw [sum_range_reflect (fun n => p.angleW n * |p.angleX n| * outflow p.cells (p.angleX n) (psi g n))
      p.angles] at h2
    simp only [mul_sub, sum_sub_distrib]
    exact sub_nonneg.mpr h2

/-- The angular flux of an eigenpair with non-negative scalar flux is non-negative. -/
theorem eigen_angular_nonneg {p : Problem K} {sigma : ℕ → ℕ → K} {xs F : ℕ → ℕ → ℕ → K} {phi : ℕ → ℕ → K}
    {k : K} {psi : ℕ → ℕ → ℕ → K} (ht : Tame p sigma xs) (hF : EmissionNonneg p F) (hk : 0 < k)
    (hphi : ∀ i < p.cells, ∀ g < p.groups, 0 ≤ phi i g) (h : KEigenpair p sigma xs F phi k psi) :
    ∀ g < p.groups, ∀ n < p.angles, ∀ i ≤ p.cells, 0 ≤ psi g n i := fun g hg =>
  swept_nonneg (q := fun _ i => ∑ g' ∈ range p.groups, xs (p.mm i) g g' * phi i g'
        + (∑ g' ∈ range p.groups, F (p.mm i) g g' * phi i g') / k)
    (ht.ok g hg).nonzero (ht.ok g hg).phys (ht.fine g hg) (h.balance g hg) (h.inflow g hg)
    (fun _ _ i hi => add_nonneg
      (sum_nonneg fun g' hg' => mul_nonneg (ht.nonneg i hi g hg g' (mem_range.mp hg'))
        (hphi i hi g' (mem_range.mp hg')))
      (div_nonneg (sum_nonneg fun g' hg' => mul_nonneg (hF i hi g hg g' (mem_range.mp hg'))
        (hphi i hi g' (mem_range.mp hg'))) hk.le))
    (fun _ _ _ => le_rfl) (fun _ _ _ => le_rfl)

/-- C118: `k` never exceeds the largest ratio `kInf` of fission yield to absorption over the materials and groups
of the slab (the infinite-medium value if there is one material and group): leakage only lowers it. -/
theorem C118_below_kinf (p : Problem K) (sigma : ℕ → ℕ → K) (xs F : ℕ → ℕ → ℕ → K) (phi : ℕ → ℕ → K) (k kInf : K)
    (psi : ℕ → ℕ → ℕ → K) (ht : Tame p sigma xs) (hF : EmissionNonneg p F) (hpas : Passive p) (hk : 0 < k)
    (hphi : ∀ i < p.cells, ∀ g < p.groups, 0 ≤ phi i g) (hG : 0 < p.groups)
    (hprod : 0 < fissionNeutrons p F phi)
    (habs : ∀ i < p.cells, ∀ g' < p.groups, ∑ g ∈ range p.groups, xs (p.mm i) g g' ≤ sigma (p.mm i) g')
    (hyield : ∀ i < p.cells, ∀ g' < p.groups, ∑ g ∈ range p.groups, F (p.mm i) g g'
      ≤ kInf * (sigma (p.mm i) g' - ∑ g ∈ range p.groups, xs (p.mm i) g g'))
    (h : KEigenpair p sigma xs F phi k psi) : k ≤ kInf := by
  have hdx : ∀ i < p.cells, 0 < p.dx i := fun i hi => ((ht.ok 0 hG).phys i hi).1
  have hbal := C118_balance p sigma xs F phi k psi (fun i hi => (hdx i hi).ne') ht.norm h
  have hpsi := eigen_angular_nonneg ht hF hk hphi h
  have hlost : 0 ≤ lost p psi := sum_nonneg fun g hg =>
    leakage_nonneg (ht.ok g (mem_range.mp hg)).nonzero ht.weights hpas (h.inflow g (mem_range.mp hg))
      (hpsi g (mem_range.mp hg))
  have habs0 : 0 ≤ absorbed p sigma xs phi := sum_nonneg fun i hi => mul_nonneg (hdx i (mem_range.mp hi)).le
    (sum_nonneg fun g' hg' => mul_nonneg
      (sub_nonneg.mpr (habs i (mem_range.mp hi) g' (mem_range.mp hg')))
      (hphi i (mem_range.mp hi) g' (mem_range.mp hg')))
  have hle : fissionNeutrons p F phi ≤ kInf * absorbed p sigma xs phi := by
    unfold fissionNeutrons absorbed
    rw [mul_sum]
    refine sum_le_sum fun i hi => ?_
    have hi := mem_range.mp hi
    rw [← mul_assoc, mul_comm kInf, mul_assoc]
    refine mul_le_mul_of_nonneg_left ?_ (hdx i hi).le
    rw [sum_comm, mul_sum]
    refine sum_le_sum fun g' hg' => ?_
    have hg' := mem_range.mp hg'
    rw [← sum_mul, ← mul_assoc]
    exact mul_le_mul_of_nonneg_right (hyield i hi g' hg') (hphi i hi g' hg')
  have hA : absorbed p sigma xs phi ≤ fissionNeutrons p F phi / k := by rw [hbal]; linarith
  have hApos : 0 < absorbed p sigma xs phi := by
    refine lt_of_le_of_ne habs0 fun h0 => ?_
    rw [← h0, mul_zero] at hle
    exact absurd hprod (not_lt.mpr hle)
  rw [le_div_iff₀ hk] at hA
  by_contra hlt
  push Not at hlt
  have := mul_lt_mul_of_pos_left hlt hApos
  linarith [mul_comm kInf (absorbed p sigma xs phi)]

/-! ## C119 -/

/-- A multiple of an eigenpair solves the fixed-source problem with the corresponding fission source. -/
theorem eigen_scaled {p : Problem K} {sigma : ℕ → ℕ → K} {xs F : ℕ → ℕ → ℕ → K} {phi : ℕ → ℕ → K}
    {k : K} {psi : ℕ → ℕ → ℕ → K} (hk : k ≠ 0) (h : KEigenpair p sigma xs F phi k psi) (r : K) :
    SolvesMultigroup p sigma xs
      ⟨1, p.groups, fun i _ g => r * ∑ g' ∈ range p.groups, F (p.mm i) g g' * phi i g'⟩ zeroBoundary
      (fun i g => r * k * phi i g) (fun g n i => r * k * psi g n i) := by
  refine ⟨fun g hg i hi => ?_, fun g hg n hn i hi => ?_, fun g hg n hn => ?_⟩
  · rw [h.scalar g hg i hi]
    unfold scalarCenter
    rw [mul_sum]
    exact sum_congr rfl fun n _ => by ring
  · have e := h.balance g hg n hn i hi
    simp only [bidx_full _ _ hg]
    have e3 : ∑ og ∈ range p.groups, xs (p.mm i) g og * (r * k * phi i og)
        = r * k * ∑ og ∈ range p.groups, xs (p.mm i) g og * phi i og := by
      rw [mul_sum]; exact sum_congr rfl fun _ _ => by ring
    rw [e3]
    have e4 : r * k * ((∑ g' ∈ range p.groups, F (p.mm i) g g' * phi i g') / k)
        = r * ∑ g' ∈ range p.groups, F (p.mm i) g g' * phi i g' := by field_simp
    linear_combination r * k * e + e4
  · have e := h.inflow g hg n hn
    simp only [zeroBoundary, inflow, outflow] at e ⊢
    split_ifs at e ⊢ <;> linear_combination r * k * e

/-- Comparison of two multiples of eigenpairs through one transport solve. -/
theorem eigen_compare {p : Problem K} {sigma : ℕ → ℕ → K} {xs F : ℕ → ℕ → ℕ → K} {c : K} (hc1 : c < 1)
    (hcon : Contractive p sigma xs c) (hF : EmissionNonneg p F) {phi phi' : ℕ → ℕ → K} {k k' : K}
    {psi psi' : ℕ → ℕ → ℕ → K} (hk : k ≠ 0) (hk' : k' ≠ 0) (h : KEigenpair p sigma xs F phi k psi)
    (h' : KEigenpair p sigma xs F phi' k' psi') (r r' : K)
    (hle : ∀ i < p.cells, ∀ g < p.groups, r * phi i g ≤ r' * phi' i g)
    (hpos : ∀ i < p.cells, ∀ g < p.groups, 0 ≤ r' * k' * phi' i g) :
    ∀ i < p.cells, ∀ g < p.groups, r * k * phi i g ≤ r' * k' * phi' i g := by
  refine (C116_more_data_more_flux p sigma xs xs _ _ zeroBoundary zeroBoundary c hc1 _ _ _ _ hcon
    ⟨fun _ _ _ _ _ _ => le_rfl, fun i hi n hn g hg => ?_, fun _ _ _ _ _ => le_rfl,
      fun _ _ _ _ _ => le_rfl⟩ (eigen_scaled hk h r) (eigen_scaled hk' h' r') hpos).1
  simp only [sourceAt, bidx_full _ _ hg, ite_self]
  have e : ∀ G, G = p.groups → (if G = 1 then 0 else g) = g := fun G hG => by
    subst hG; exact bidx_full _ _ hg
  simp only [e _ rfl]
  rw [mul_sum, mul_sum]
  refine sum_le_sum fun g' hg' => ?_
  have := mul_le_mul_of_nonneg_left (hle i hi g' (mem_range.mp hg')) (hF i hi g hg g' (mem_range.mp hg'))
  linarith [mul_comm r (F (p.mm i) g g' * phi i g')]

/-- C119: the multiplication factor of a positive flux dominates every other (real) eigenvalue: if `phi'` is
positive in all cells and groups, then `|k| <= k'` for every eigenpair `(phi, k)` that is not identically zero,
whatever its signs. -/
theorem C119_dominant (p : Problem K) (sigma : ℕ → ℕ → K) (xs F : ℕ → ℕ → ℕ → K) (c : K) (hc1 : c < 1)
    (hcon : Contractive p sigma xs c) (hF : EmissionNonneg p F) (phi phi' : ℕ → ℕ → K) (k k' : K)
    (psi psi' : ℕ → ℕ → ℕ → K) (hk : k ≠ 0) (hk' : 0 < k') (h : KEigenpair p sigma xs F phi k psi)
    (h' : KEigenpair p sigma xs F phi' k' psi') (hpos : ∀ i < p.cells, ∀ g < p.groups, 0 < phi' i g)
    (hne : ∃ i < p.cells, ∃ g < p.groups, phi i g ≠ 0) : |k| ≤ k' := by
  obtain ⟨i0, hi0, g0, hg0, hne⟩ := hne
  obtain ⟨m, hm, hmax⟩ := (range p.cells ×ˢ range p.groups).exists_max_image
    (fun a => |phi a.1 a.2| / phi' a.1 a.2) ⟨(i0, g0), by simp [hi0, hg0]⟩
  set t := |phi m.1 m.2| / phi' m.1 m.2 with htdef
  have hm1 := mem_range.mp (mem_product.mp hm).1
  have hm2 := mem_range.mp (mem_product.mp hm).2
  have hb : ∀ i < p.cells, ∀ g < p.groups, |phi i g| ≤ t * phi' i g := fun i hi g hg => by
    have := hmax (i, g) (by simp [hi, hg])
    exact (div_le_iff₀ (hpos i hi g hg)).mp this
  have ht : 0 < t := by
    have h1 := hb i0 hi0 g0 hg0
    have h2 := abs_pos.mpr hne
    by_contra hcon
    push Not at hcon
    have := mul_nonpos_of_nonpos_of_nonneg hcon (hpos i0 hi0 g0 hg0).le
    linarith
  have hnn : ∀ i < p.cells, ∀ g < p.groups, 0 ≤ t * k' * phi' i g := fun i hi g hg =>
    mul_nonneg (mul_nonneg ht.le hk'.le) (hpos i hi g hg).le
  have h1 := eigen_compare hc1 hcon hF hk hk'.ne' h h' 1 t
    (fun i hi g hg => by rw [one_mul]; exact (le_abs_self _).trans (hb i hi g hg)) hnn m.1 hm1 m.2 hm2
  have h2 := eigen_compare hc1 hcon hF hk hk'.ne' h h' (-1) t
    (fun i hi g hg => by rw [neg_one_mul]; exact (neg_le_abs _).trans (hb i hi g hg)) hnn m.1 hm1 m.2 hm2
  have heq : |phi m.1 m.2| = t * phi' m.1 m.2 := by
    rw [htdef, div_mul_cancel₀ _ (hpos m.1 hm1 m.2 hm2).ne']
  have habs : |k| * |phi m.1 m.2| ≤ k' * (t * phi' m.1 m.2) := by
    rw [← abs_mul]
    refine abs_le.mpr ⟨by linarith, by linarith⟩
  rw [heq] at habs
  exact le_of_mul_le_mul_right habs (mul_pos ht (hpos m.1 hm1 m.2 hm2))

/-- C119: at most one multiplication factor has a positive flux. -/
theorem C119_unique (p : Problem K) (sigma : ℕ → ℕ → K) (xs F : ℕ → ℕ → ℕ → K) (c : K) (hc1 : c < 1)
    (hcon : Contractive p sigma xs c) (hF : EmissionNonneg p F) (phi phi' : ℕ → ℕ → K) (k k' : K)
    (psi psi' : ℕ → ℕ → ℕ → K) (hk : 0 < k) (hk' : 0 < k') (h : KEigenpair p sigma xs F phi k psi)
    (h' : KEigenpair p sigma xs F phi' k' psi') (hpos : ∀ i < p.cells, ∀ g < p.groups, 0 < phi i g)
    (hpos' : ∀ i < p.cells, ∀ g < p.groups, 0 < phi' i g) (hN : 0 < p.cells) (hG : 0 < p.groups) : k = k' := by
  have h1 := C119_dominant p sigma xs F c hc1 hcon hF phi phi' k k' psi psi' hk.ne' hk' h h' hpos'
    ⟨0, hN, 0, hG, (hpos 0 hN 0 hG).ne'⟩
  have h2 := C119_dominant p sigma xs F c hc1 hcon hF phi' phi k' k psi' psi hk'.ne' hk h' h hpos
    ⟨0, hN, 0, hG, (hpos' 0 hN 0 hG).ne'⟩
  rw [abs_of_pos hk] at h1
  rw [abs_of_pos hk'] at h2
  exact le_antisymm h1 h2

/-! ## C120 -/

/-- C120: if the random start lies between `a phi` and `b phi` for a positive eigenvector `phi` with factor `k`
(there always are such `a`, `b` for a positive start), then on down-scatter problems every iterate of
`power_iteration` lies between the same multiples of `phi` up to a common factor, and every `keff` it computes
lies in `[a/b k, b/a k]`.  Whenever it stops, the returned `keff` is in that interval; it is exact when the start
is an eigenvector. -/
theorem C120_bracket (p : Problem K) (norm : (ℕ → ℕ → K) → K) (conv : (ℕ → ℕ → K) → (ℕ → ℕ → K) → Bool)
    (xsTotal : ℕ → ℕ → K) (xs : ℕ → ℕ → ℕ → K) (fission : Fission K) (random : ℕ → ℕ → K) (c : K) (hc1 : c < 1)
    (hcon : Contractive p xsTotal xs c) (hdown : ∀ m g g', g ≤ g' → xs m g g' = 0)
    (hf : FissionNonneg p.groups fission) (hF : EmissionNonneg p (fissionMatrix fission))
    (phi : ℕ → ℕ → K) (k : K) (psi : ℕ → ℕ → ℕ → K) (hk : 0 < k)
    (hpair : KEigenpair p xsTotal xs (fissionMatrix fission) phi k psi)
    (hpos : ∀ i < p.cells, ∀ g < p.groups, 0 < phi i g)
    (hprod : 0 < totalProduction p (fissionMatrix fission) phi)
    (hnorm : ∀ f, (∀ i < p.cells, ∀ g < p.groups, 0 < f i g) → 0 < norm f)
    (a b : K) (ha : 0 < a) (hab : a ≤ b)
    (hstart : ∀ i < p.cells, ∀ g < p.groups, a * phi i g ≤ random i g ∧ random i g ≤ b * phi i g) :
    ∃ x n, Run (powerStep p norm xsTotal (.iso xs) fission) (fun a b => conv a.flux b.flux) 100
        (start norm random) x n ∧
      powerIteration p norm conv xsTotal (.iso xs) fission random = .ok (x n, n) ∧
      ∀ j ≤ n, (∃ s > 0, ∀ i < p.cells, ∀ g < p.groups,
          s * (a * phi i g) ≤ (x j).flux i g ∧ (x j).flux i g ≤ s * (b * phi i g)) ∧
        0 < (x j).keff ∧ (1 ≤ j → a / b * k ≤ (x j).keff ∧ (x j).keff ≤ b / a * k) := by
  obtain ⟨x, n, hr, he⟩ := C27_power_iteration_stops p norm conv xsTotal (.iso xs) fission random hcon.ok
  refine ⟨x, n, hr, he, fun j => ?_⟩
  have hb : 0 < b := lt_of_lt_of_le ha hab
  induction j with
  | zero =>
    intro _
    have hn : 0 < norm random := hnorm random fun i hi g hg =>
      lt_of_lt_of_le (mul_pos ha (hpos i hi g hg)) (hstart i hi g hg).1
    rw [hr.start]
    refine ⟨⟨1 / |norm random|, by rw [abs_of_pos hn]; positivity, fun i hi g hg => ?_⟩, hn,
      fun h => absurd h (by omega)⟩
    have := hstart i hi g hg
    have h0 : 0 < |norm random| := by rwa [abs_of_pos hn]
    simp only [start]
    rw [one_div_mul_eq_div, one_div_mul_eq_div]
    exact ⟨div_le_div_of_nonneg_right this.1 h0.le, div_le_div_of_nonneg_right this.2 h0.le⟩
  | succ j ih =>
    intro hj
    obtain ⟨⟨s, hs, hx⟩, hkj, _⟩ := ih (by omega)
    obtain ⟨flux, k1, k2⟩ := powerStep_ok p norm xsTotal (.iso xs) fission hcon.ok (x j)
    rw [hr.steps j (by omega)] at k2
    have k2 := Except.ok.inj k2
    obtain ⟨o, psi', k3, hsol⟩ := C22_downscatter_exact p xsTotal xs
      (fissionSource p.groups p.mm fission (x j).flux (x j).keff) zeroBoundary (x j).flux hcon.ok hdown
    have ho : o = flux := by rw [k1] at k3; exact (Except.ok.inj k3).symm
    subst ho
    have hsrc : ∀ (r : K), ∀ i, ∀ n', ∀ g < p.groups,
        sourceAt (⟨1, p.groups, fun i _ g => r * ∑ g' ∈ range p.groups,
          fissionMatrix fission (p.mm i) g g' * phi i g'⟩ : Arr3 K) i n' g
          = (∑ g' ∈ range p.groups, fissionMatrix fission (p.mm i) g g' * (r * (x j).keff * phi i g'))
            / (x j).keff := by
      intro r i n' g hg
      have : sourceAt (⟨1, p.groups, fun i _ g => r * ∑ g' ∈ range p.groups,
          fissionMatrix fission (p.mm i) g g' * phi i g'⟩ : Arr3 K) i n' g
          = (fun i (_ : ℕ) g => r * ∑ g' ∈ range p.groups,
          fissionMatrix fission (p.mm i) g g' * phi i g') i n' (bidx p.groups g) := rfl
      rw [this, bidx_full _ _ hg, eq_div_iff hkj.ne']
      show r * (∑ g' ∈ range p.groups, fissionMatrix fission (p.mm i) g g' * phi i g') * (x j).keff = _
      rw [mul_sum, sum_mul]
      exact sum_congr rfl fun g' _ => by ring
    have hfs : ∀ i, ∀ n', ∀ g < p.groups,
        sourceAt (fissionSource p.groups p.mm fission (x j).flux (x j).keff) i n' g
          = (∑ g' ∈ range p.groups, fissionMatrix fission (p.mm i) g g' * (x j).flux i g') / (x j).keff :=
      fun i n' g hg => fissionSource_val p fission hf _ _ i n' g hg
    have hnonneg : ∀ i < p.cells, ∀ g < p.groups, 0 ≤ (x j).flux i g := fun i hi g hg =>
      (mul_nonneg hs.le (mul_nonneg ha.le (hpos i hi g hg).le)).trans (hx i hi g hg).1
    set r := s / (x j).keff with hrdef
    have hrpos : 0 < r := div_pos hs hkj
    have hrk : r * (x j).keff = s := div_mul_cancel₀ _ hkj.ne'
    have hlow : ∀ i < p.cells, ∀ g < p.groups, r * a * k * phi i g ≤ o i g := by
      refine (C116_more_data_more_flux p xsTotal xs xs _ _ zeroBoundary zeroBoundary c hc1 _ _ _ _ hcon
        ⟨fun _ _ _ _ _ _ => le_rfl, fun i hi n' hn' g hg => ?_, fun _ _ _ _ _ => le_rfl,
          fun _ _ _ _ _ => le_rfl⟩ (eigen_scaled hk.ne' hpair (r * a)) hsol ?_).1
      · rw [hsrc _ i n' g hg, hfs i n' g hg]
        refine div_le_div_of_nonneg_right (sum_le_sum fun g' hg' => ?_) hkj.le
        refine mul_le_mul_of_nonneg_left ?_ (hF i hi g hg g' (mem_range.mp hg'))
        rw [show r * a * (x j).keff * phi i g' = s * (a * phi i g') by
          linear_combination (a * phi i g') * hrk]
        exact (hx i hi g' (mem_range.mp hg')).1
      · refine (C116_exact_nonneg p xsTotal xs _ zeroBoundary c hc1 o psi' hcon (fun i hi n' hn' g hg => ?_)
          (fun _ _ _ _ _ => le_refl (0 : K)) (fun _ _ _ _ _ => le_refl (0 : K)) hsol).1
        rw [hfs i n' g hg]
        exact div_nonneg (sum_nonneg fun g' hg' => mul_nonneg (hF i hi g hg g' (mem_range.mp hg'))
          (hnonneg i hi g' (mem_range.mp hg'))) hkj.le
    have hhigh : ∀ i < p.cells, ∀ g < p.groups, o i g ≤ r * b * k * phi i g := by
      refine (C116_more_data_more_flux p xsTotal xs xs _ _ zeroBoundary zeroBoundary c hc1 _ _ _ _ hcon
        ⟨fun _ _ _ _ _ _ => le_rfl, fun i hi n' hn' g hg => ?_, fun _ _ _ _ _ => le_rfl,
          fun _ _ _ _ _ => le_rfl⟩ hsol (eigen_scaled hk.ne' hpair (r * b)) ?_).1
      · rw [hsrc _ i n' g hg, hfs i n' g hg]
        refine div_le_div_of_nonneg_right (sum_le_sum fun g' hg' => ?_) hkj.le
        refine mul_le_mul_of_nonneg_left ?_ (hF i hi g hg g' (mem_range.mp hg'))
        rw [show r * b * (x j).keff * phi i g' = s * (b * phi i g') by
          linear_combination (b * phi i g') * hrk]
        exact (hx i hi g' (mem_range.mp hg')).2
      · intro i hi g hg
        have := hpos i hi g hg
        positivity
    have hno : 0 < norm o := hnorm o fun i hi g hg =>
      lt_of_lt_of_le (mul_pos (mul_pos (mul_pos hrpos ha) hk) (hpos i hi g hg)) (hlow i hi g hg)
    set P := totalProduction p (fissionMatrix fission) with hP
    have hPo1 : r * a * k * P phi ≤ P o := by
      rw [hP, ← totalProduction_smul]; exact totalProduction_mono hF hlow
    have hPo2 : P o ≤ r * b * k * P phi := by
      rw [hP, ← totalProduction_smul]; exact totalProduction_mono hF hhigh
    have hPx1 : s * a * P phi ≤ P (x j).flux := by
      rw [hP, ← totalProduction_smul]
      exact totalProduction_mono hF fun i hi g hg => by rw [mul_assoc]; exact (hx i hi g hg).1
    have hPx2 : P (x j).flux ≤ s * b * P phi := by
      rw [hP, ← totalProduction_smul]
      exact totalProduction_mono hF fun i hi g hg => by rw [mul_assoc]; exact (hx i hi g hg).2
    have hPxpos : 0 < P (x j).flux := lt_of_lt_of_le (mul_pos (mul_pos hs ha) hprod) hPx1
    have hPopos : 0 < P o := lt_of_lt_of_le (mul_pos (mul_pos (mul_pos hrpos ha) hk) hprod) hPo1
    rw [k2]
    simp only [updateKeff_eq p fission hf]
    refine ⟨⟨r * k / norm o, by positivity, fun i hi g hg => ?_⟩, by positivity, fun _ => ⟨?_, ?_⟩⟩
    · simp only [normalise]
      rw [show r * k / norm o * (a * phi i g) = r * a * k * phi i g / norm o by ring,
        show r * k / norm o * (b * phi i g) = r * b * k * phi i g / norm o by ring]
      exact ⟨div_le_div_of_nonneg_right (hlow i hi g hg) hno.le,
        div_le_div_of_nonneg_right (hhigh i hi g hg) hno.le⟩
    · rw [le_div_iff₀ hPxpos, div_mul_eq_mul_div, div_mul_eq_mul_div, div_le_iff₀ hb]
      calc a * k * P (x j).flux ≤ a * k * (s * b * P phi) :=
            mul_le_mul_of_nonneg_left hPx2 (by positivity)
        _ = (x j).keff * (r * a * k * P phi) * b := by rw [← hrk]; ring
        _ ≤ (x j).keff * P o * b := by
            refine mul_le_mul_of_nonneg_right (mul_le_mul_of_nonneg_left hPo1 hkj.le) hb.le
    · rw [div_le_iff₀ hPxpos, div_mul_eq_mul_div, div_mul_eq_mul_div, le_div_iff₀ ha]
      calc (x j).keff * P o * a ≤ (x j).keff * (r * b * k * P phi) * a :=
            mul_le_mul_of_nonneg_right (mul_le_mul_of_nonneg_left hPo2 hkj.le) ha.le
        _ = b * k * (s * a * P phi) := by rw [← hrk]; ring
        _ ≤ b * k * P (x j).flux := mul_le_mul_of_nonneg_left hPx1 (by positivity)

/-! ### Examples -/

/-- Down-scatter cross sections of the example. -/
def exCritDown : ℕ → ℕ → ℕ → ℚ := fun _ g g' => if g = 1 ∧ g' = 0 then 1 / 2 else 0

/-- Fission cross sections of the example. -/
def exCritFission : ℕ → ℕ → ℕ → ℚ := fun _ g _ => if g = 0 then 3 / 2 else 5 / 4

theorem exCritDownContractive : Contractive exCrit (fun _ _ => 1) exCritDown (1 / 2) where
  ok := exCritContractive.ok
  fine := exCritContractive.fine
  weights := exCritContractive.weights
  norm := exCritContractive.norm
  nonneg := fun _ _ g _ g' _ => by simp only [exCritDown]; split_ifs <;> norm_num
  rows := fun _ _ g hg => by
    have hg : g < 2 := hg
    have h : g = 0 ∨ g = 1 := by omega
    rcases h with rfl | rfl <;> norm_num [exCrit, exCritDown, sum_range_succ]

theorem exCritDownPair : KEigenpair exCrit (fun _ _ => 1) exCritDown exCritFission (fun _ _ => 1) 1
    (fun _ n i => if n = 0 then (if i = 0 then 2 else 0) else if i = 0 then 0 else 2) where
  scalar := exCritPair.scalar
  balance := fun g hg n hn i hi => by
    have e := exCritPair.balance g hg n hn i hi
    have hg : g < 2 := hg
    have h : g = 0 ∨ g = 1 := by omega
    rw [e]
    rcases h with rfl | rfl <;> norm_num [exCrit, exCritDown, exCritFission, sum_range_succ]
  inflow := exCritPair.inflow

theorem exCritFission_nonneg : EmissionNonneg exCrit exCritFission := fun _ _ g _ g' _ => by
  simp only [exCritFission]; split_ifs <;> norm_num

theorem exCritPassive : Passive exCrit := Or.inl ⟨rfl, rfl⟩

theorem exCritTame : Tame exCrit (fun _ _ => 1) exCritDown :=
  ⟨exCritDownContractive.ok, exCritDownContractive.fine, exCritDownContractive.weights,
    exCritDownContractive.norm, exCritDownContractive.nonneg⟩

-- C117: the hypotheses hold for a two-group slab with fission in both groups
example : ∃ x n, Run (powerStep exCrit (fun f => |f 0 0|) (fun _ _ => 1) (.iso exCritDown) (.matrix exCritFission))
      (fun _ _ => false) 100 (start (fun f => |f 0 0|) fun i g => i + g + 1) x n ∧ 0 ≤ (x n).keff := by
  obtain ⟨x, n, h1, _, h3⟩ := C117_power_iteration_nonneg exCrit (fun f => |f 0 0|) (fun _ _ => false)
    (fun _ _ => 1) exCritDown (.matrix exCritFission) (fun i g => i + g + 1) exCritTame (by norm_num [exCrit])
    (fun _ g _ _ _ => by simp only [exCritFission]; split_ifs <;> norm_num) exCritFission_nonneg
    (fun _ => abs_nonneg _) (fun i _ g _ => by positivity)
  exact ⟨x, n, h1, (h3 n le_rfl).2.1⟩

-- C118: the example eigenpair loses neutrons through the faces and stays below `kInf = 11/2`
example : fissionNeutrons exCrit exCritFission (fun _ _ => 1) / 1
    = absorbed exCrit (fun _ _ => 1) exCritDown (fun _ _ => 1) + lost exCrit (fun _ n i =>
      if n = 0 then (if i = 0 then 2 else 0) else if i = 0 then 0 else 2) :=
  C118_balance exCrit _ _ _ _ 1 _ (fun _ _ => by norm_num [exCrit]) exCritTame.norm exCritDownPair

example : (1 : ℚ) ≤ 11 / 2 :=
  C118_below_kinf exCrit (fun _ _ => 1) exCritDown exCritFission (fun _ _ => 1) 1 (11 / 2) _ exCritTame
    exCritFission_nonneg exCritPassive (by norm_num) (fun _ _ _ _ => by norm_num) (by norm_num [exCrit])
    (by norm_num [fissionNeutrons, exCrit, exCritFission, sum_range_succ])
    (fun _ _ g' hg' => by
      have hg' : g' < 2 := hg'
      have h : g' = 0 ∨ g' = 1 := by omega
      rcases h with rfl | rfl <;> norm_num [exCrit, exCritDown, sum_range_succ])
    (fun _ _ g' hg' => by
      have hg' : g' < 2 := hg'
      have h : g' = 0 ∨ g' = 1 := by omega
      rcases h with rfl | rfl <;> norm_num [exCrit, exCritDown, exCritFission, sum_range_succ]) exCritDownPair

-- C119: every other eigenvalue of the example has modulus at most 1
example (phi : ℕ → ℕ → ℚ) (k : ℚ) (psi : ℕ → ℕ → ℕ → ℚ) (hk : k ≠ 0)
    (h : KEigenpair exCrit (fun _ _ => 1) exCritDown exCritFission phi k psi)
    (hne : ∃ i < exCrit.cells, ∃ g < exCrit.groups, phi i g ≠ 0) : |k| ≤ 1 :=
  C119_dominant exCrit _ _ _ (1 / 2) (by norm_num) exCritDownContractive exCritFission_nonneg phi (fun _ _ => 1) k 1
    psi _ hk (by norm_num) h exCritDownPair (fun _ _ _ _ => by norm_num) hne

example (phi : ℕ → ℕ → ℚ) (k : ℚ) (psi : ℕ → ℕ → ℕ → ℚ) (hk : 0 < k)
    (h : KEigenpair exCrit (fun _ _ => 1) exCritDown exCritFission phi k psi)
    (hpos : ∀ i < exCrit.cells, ∀ g < exCrit.groups, 0 < phi i g) : k = 1 :=
  C119_unique exCrit _ _ _ (1 / 2) (by norm_num) exCritDownContractive exCritFission_nonneg phi (fun _ _ => 1) k 1
    psi _ hk (by norm_num) h exCritDownPair hpos (fun _ _ _ _ => by norm_num) (by norm_num [exCrit])
    (by norm_num [exCrit])

-- C120: started from the flux (1, 2), the returned `keff` is between 1/2 and 2
example : ∃ s n, powerIteration exCrit (fun f => |f 0 0|) (fun _ _ => false) (fun _ _ => 1) (.iso exCritDown)
      (.matrix exCritFission) (fun i g => i + g + 1) = .ok (s, n) ∧
    (1 ≤ n → 1 / 2 ≤ s.keff ∧ s.keff ≤ 2) := by
  obtain ⟨x, n, _, h2, h3⟩ := C120_bracket exCrit (fun f => |f 0 0|) (fun _ _ => false) (fun _ _ => 1) exCritDown
    (.matrix exCritFission) (fun i g => i + g + 1) (1 / 2) (by norm_num) exCritDownContractive
    (fun _ g g' h => by simp only [exCritDown]; rw [if_neg (by omega)])
    (fun _ g _ _ _ => by simp only [exCritFission]; split_ifs <;> norm_num) exCritFission_nonneg (fun _ _ => 1) 1 _
    (by norm_num) exCritDownPair (fun _ _ _ _ => by norm_num)
    (by norm_num [totalProduction, exCrit, fissionMatrix, exCritFission, sum_range_succ])
    (fun f hf => abs_pos.mpr (hf 0 (by norm_num [exCrit]) 0 (by norm_num [exCrit])).ne') 1 2 (by norm_num)
    (by norm_num) (fun i hi g hg => by
      have hi : i = 0 := by simpa [exCrit] using hi
      have hg : g < 2 := hg
      have h : g = 0 ∨ g = 1 := by omega
      subst hi
      rcases h with rfl | rfl <;> norm_num)
  refine ⟨_, n, h2, fun h => ?_⟩
  have := (h3 n le_rfl).2.2 h
  norm_num at this ⊢
  exact this

end Discrete1.Props
