import Verif.Props.KeffMono
import Verif.Props.Superpose
import Verif.Props.Energy
import Mathlib.Analysis.SpecificLimits.Basic
import Mathlib.Topology.Order.MonotoneConvergence

/-!
# C170 (the fundamental mode exists and is unique), C171 (power iteration converges to it)
-/

set_option linter.unusedSectionVars false
set_option linter.unusedSimpArgs false

namespace Discrete1.Props

open Finset Discrete1.Spec Discrete1.Slab Discrete1.Tools Discrete1.MultiGroup Discrete1.Drivers Discrete1.Critical

section General

variable {K : Type} [Field K] [LinearOrder K] [IsStrictOrderedRing K]

/-- `out` is the scalar flux of the isotropic source `s` (cell, group): nothing enters from outside. -/
def Answers (p : Problem K) (sigma : ℕ → ℕ → K) (xs : ℕ → ℕ → ℕ → K) (s out : ℕ → ℕ → K) : Prop :=
  ∃ psi, SolvesMultigroup p sigma xs ⟨p.angles, p.groups, fun i _ g => s i g⟩ zeroBoundary out psi

/-- Fission neutrons emitted by the flux `f` in cell `i` and group `g`. -/
def emission (p : Problem K) (F : ℕ → ℕ → ℕ → K) (f : ℕ → ℕ → K) (i g : ℕ) : K :=
  ∑ g' ∈ range p.groups, F (p.mm i) g g' * f i g'

variable {p : Problem K} {sigma : ℕ → ℕ → K} {xs F : ℕ → ℕ → ℕ → K} {c : K}

theorem answers_exists (hc : 0 ≤ c) (hc1 : c < 1) (hcon : Contractive p sigma xs c) (s : ℕ → ℕ → K) :
    ∃ out, Answers p sigma xs s out := by
  obtain ⟨phi, e, h⟩ := C74_exists p sigma xs ⟨p.angles, p.groups, fun i _ g => s i g⟩ zeroBoundary c hc hc1 hcon
  exact ⟨phi, e, h⟩

theorem answers_congr {s s' out out' : ℕ → ℕ → K} (h : Answers p sigma xs s out)
    (hs : ∀ i < p.cells, ∀ g < p.groups, s i g = s' i g) (ho : ∀ i < p.cells, ∀ g < p.groups, out' i g = out i g) :
    Answers p sigma xs s' out' := by
  obtain ⟨e, h⟩ := h
  refine ⟨e, solves_congr_flux (solves_congr h fun i hi n hn g hg => ?_) ho⟩
  simp only [bidx_full _ _ hn, bidx_full _ _ hg]
  exact hs i hi g hg

theorem answers_linear {s1 s2 o1 o2 : ℕ → ℕ → K} (a b : K) (h1 : Answers p sigma xs s1 o1)
    (h2 : Answers p sigma xs s2 o2) :
    Answers p sigma xs (fun i g => a * s1 i g + b * s2 i g) (fun i g => a * o1 i g + b * o2 i g) := by
  obtain ⟨e1, h1⟩ := h1
  obtain ⟨e2, h2⟩ := h2
  have h := solves_combined a b h1 h2
  refine ⟨_, h.scalar, fun g hg n hn i hi => ?_, fun g hg n hn => ?_⟩
  · have := h.balance g hg n hn i hi
    simp only [combined, bidx_full _ _ hn, bidx_full _ _ hg] at this ⊢
    rw [this]
    simp only [sourceAt_full _ hn hg]
  · have := h.inflow g hg n hn
    simpa [combined, zeroBoundary, sourceAt] using this

theorem answers_nonneg (hc1 : c < 1) (hcon : Contractive p sigma xs c) {s out : ℕ → ℕ → K}
    (h : Answers p sigma xs s out) (hs : ∀ i < p.cells, ∀ g < p.groups, 0 ≤ s i g) :
    ∀ i < p.cells, ∀ g < p.groups, 0 ≤ out i g := by
  obtain ⟨e, h⟩ := h
  refine (C116_exact_nonneg p sigma xs _ zeroBoundary c hc1 out e hcon (fun i hi n hn g hg => ?_)
    (fun _ _ _ _ _ => le_refl (0 : K)) (fun _ _ _ _ _ => le_refl (0 : K)) h).1
  rw [sourceAt_full _ hn hg]
  exact hs i hi g hg

theorem answers_mono (hc1 : c < 1) (hcon : Contractive p sigma xs c) {s s' out out' : ℕ → ℕ → K}
    (h : Answers p sigma xs s out) (h' : Answers p sigma xs s' out')
    (hs : ∀ i < p.cells, ∀ g < p.groups, s i g ≤ s' i g) :
    ∀ i < p.cells, ∀ g < p.groups, out i g ≤ out' i g := by
  intro i hi g hg
  have := answers_nonneg hc1 hcon (answers_linear 1 (-1) h' h) (fun i hi g hg => by linarith [hs i hi g hg]) i hi g hg
  linarith

theorem answers_unique (hc1 : c < 1) (hcon : Contractive p sigma xs c) {s out out' : ℕ → ℕ → K}
    (h : Answers p sigma xs s out) (h' : Answers p sigma xs s out') :
    ∀ i < p.cells, ∀ g < p.groups, out i g = out' i g := fun i hi g hg =>
  le_antisymm (answers_mono hc1 hcon h h' (fun _ _ _ _ => le_rfl) i hi g hg)
    (answers_mono hc1 hcon h' h (fun _ _ _ _ => le_rfl) i hi g hg)

theorem answers_zero : Answers p sigma xs (fun _ _ => 0) fun _ _ => 0 := by
  refine ⟨fun _ _ _ => 0, fun g hg i hi => ?_, fun g hg n hn i hi => ?_, fun g hg n hn => ?_⟩
  · simp [scalarCenter]
  · simp
  · simp [inflow, outflow, zeroBoundary]

theorem answers_sum (w : ℕ → K) (s o : ℕ → ℕ → ℕ → K) (N : ℕ) (h : ∀ j < N, Answers p sigma xs (s j) (o j)) :
    Answers p sigma xs (fun i g => ∑ j ∈ range N, w j * s j i g) (fun i g => ∑ j ∈ range N, w j * o j i g) := by
  induction N with
  | zero => simpa using answers_zero
  | succ N ih =>
    have := answers_linear 1 (w N) (ih fun j hj => h j (by omega)) (h N (by omega))
    simpa [sum_range_succ] using this

/-! ### Positivity -/

/-- Particles can spread to both sides: some direction of each sign carries weight and is resolved by the mesh with
some slack, `sigma dx < 2 |mu|`. -/
structure Spreads (p : Problem K) (sigma : ℕ → ℕ → K) : Prop where
  right : ∃ n < p.angles, 0 < p.angleX n ∧ 0 < p.angleW n ∧
    ∀ i < p.cells, ∀ g < p.groups, sigma (p.mm i) g * p.dx i < 2 * p.angleX n
  left : ∃ n < p.angles, p.angleX n < 0 ∧ 0 < p.angleW n ∧
    ∀ i < p.cells, ∀ g < p.groups, sigma (p.mm i) g * p.dx i < -(2 * p.angleX n)

/-- A non-negative source that is positive in one cell makes the flux of that group positive everywhere. -/
theorem answers_pos (hc1 : c < 1) (hcon : Contractive p sigma xs c) (hsp : Spreads p sigma) {s out : ℕ → ℕ → K}
    (h : Answers p sigma xs s out) (hs : ∀ i < p.cells, ∀ g < p.groups, 0 ≤ s i g) {g j : ℕ} (hg : g < p.groups)
    (hj : j < p.cells) (hpos : 0 < s j g) : ∀ i < p.cells, 0 < out i g := by
  obtain ⟨e, h⟩ := h
  obtain ⟨hout, he⟩ := C116_exact_nonneg p sigma xs _ zeroBoundary c hc1 out e hcon (fun i hi n hn g hg => by
    rw [sourceAt_full _ hn hg]; exact hs i hi g hg)
    (fun _ _ _ _ _ => le_refl (0 : K)) (fun _ _ _ _ _ => le_refl (0 : K)) h
  -- the whole source of a cell
  set q : ℕ → K := fun i => (∑ og ∈ range p.groups, xs (p.mm i) g og * out i og) + s i g with hq
  have hq0 : ∀ i < p.cells, 0 ≤ q i := fun i hi => add_nonneg (sum_nonneg fun og hog =>
    mul_nonneg (hcon.nonneg i hi g hg og (mem_range.mp hog)) (hout i hi og (mem_range.mp hog))) (hs i hi g hg)
  have hqj : 0 < q j := add_pos_of_nonneg_of_pos (sum_nonneg fun og hog =>
    mul_nonneg (hcon.nonneg j hj g hg og (mem_range.mp hog)) (hout j hj og (mem_range.mp hog))) hpos
  have hbal : ∀ n < p.angles, ∀ i < p.cells, p.angleX n * (e g n (i + 1) - e g n i) / p.dx i
      + sigma (p.mm i) g * ((e g n i + e g n (i + 1)) / 2) = q i := fun n hn i hi => by
    have := h.balance g hg n hn i hi
    simp only [bidx_full _ _ hn, bidx_full _ _ hg] at this
    exact this
  have hstep : ∀ n < p.angles, ∀ i < p.cells,
      (2 * p.angleX n + sigma (p.mm i) g * p.dx i) * e g n (i + 1)
        = (2 * p.angleX n - sigma (p.mm i) g * p.dx i) * e g n i + 2 * p.dx i * q i := fun n hn i hi => by
    have hd := ((hcon.ok g hg).phys i hi).1
    have := hbal n hn i hi
    field_simp at this
    linear_combination this
  have hcell : ∀ n < p.angles, 0 < p.angleW n → ∀ i < p.cells, 0 < e g n i + e g n (i + 1) → 0 < out i g := by
    intro n hn hw i hi hp
    rw [h.scalar g hg i hi]
    unfold scalarCenter
    refine lt_of_lt_of_le (mul_pos hw (half_pos hp)) (single_le_sum (f := fun n => p.angleW n *
      ((e g n i + e g n (i + 1)) / 2)) (fun n' hn' => mul_nonneg (hcon.weights n' (mem_range.mp hn'))
        (div_nonneg (add_nonneg (he g hg n' (mem_range.mp hn') i hi.le) (he g hg n' (mem_range.mp hn') (i + 1) hi))
          zero_le_two)) (mem_range.mpr hn))
  intro i hi
  rcases le_or_gt j i with hji | hij
  · obtain ⟨n, hn, hmu, hw, hfine⟩ := hsp.right
    -- the outgoing edge of every cell from `j` on is positive
    have key : ∀ d, j + d < p.cells → 0 < e g n (j + d + 1) := by
      intro d
      induction d with
      | zero =>
        intro hd
        have h1 := hstep n hn j hj
        have h2 := (hcon.ok g hg).phys j hj
        have h3 := hfine j hj g hg
        have h4 := he g hg n hn j hj.le
        have hcoef : 0 < 2 * p.angleX n + sigma (p.mm j) g * p.dx j := by nlinarith [h2.1, h2.2]
        have : 0 < (2 * p.angleX n + sigma (p.mm j) g * p.dx j) * e g n (j + 1) := by
          rw [h1]
          exact add_pos_of_nonneg_of_pos (mul_nonneg (by linarith) h4) (by have := h2.1; positivity)
        exact (pos_iff_pos_of_mul_pos this).mp hcoef
      | succ d ih =>
        intro hd
        have hd' : j + d + 1 < p.cells := by omega
        have h0 := ih (by omega)
        have h1 := hstep n hn (j + d + 1) hd'
        have h2 := (hcon.ok g hg).phys (j + d + 1) hd'
        have h3 := hfine (j + d + 1) hd' g hg
        have hcoef : 0 < 2 * p.angleX n + sigma (p.mm (j + d + 1)) g * p.dx (j + d + 1) := by nlinarith [h2.1, h2.2]
        have : 0 < (2 * p.angleX n + sigma (p.mm (j + d + 1)) g * p.dx (j + d + 1)) * e g n (j + d + 1 + 1) := by
          rw [h1]
          exact add_pos_of_pos_of_nonneg (mul_pos (by linarith) h0)
            (mul_nonneg (by have := h2.1; positivity) (hq0 _ hd'))
        exact (pos_iff_pos_of_mul_pos this).mp hcoef
    obtain ⟨d, rfl⟩ := Nat.exists_eq_add_of_le hji
    exact hcell n hn hw _ hi (add_pos_of_nonneg_of_pos (he g hg n hn _ hi.le) (key d hi))
  · obtain ⟨n, hn, hmu, hw, hfine⟩ := hsp.left
    have key : ∀ d ≤ j, 0 < e g n (j - d) := by
      intro d
      induction d with
      | zero =>
        intro _
        have h1 := hstep n hn j hj
        have h2 := (hcon.ok g hg).phys j hj
        have h3 := hfine j hj g hg
        have h4 := he g hg n hn (j + 1) hj
        have h5 : (-(2 * p.angleX n) + sigma (p.mm j) g * p.dx j) * e g n j
            = (-(2 * p.angleX n) - sigma (p.mm j) g * p.dx j) * e g n (j + 1) + 2 * p.dx j * q j := by
          linear_combination h1
        have hcoef : 0 < -(2 * p.angleX n) + sigma (p.mm j) g * p.dx j := by nlinarith [h2.1, h2.2]
        have : 0 < (-(2 * p.angleX n) + sigma (p.mm j) g * p.dx j) * e g n j := by
          rw [h5]
          exact add_pos_of_nonneg_of_pos (mul_nonneg (by linarith) h4) (by have := h2.1; positivity)
        exact (pos_iff_pos_of_mul_pos this).mp hcoef
      | succ d ih =>
        intro hd
        obtain ⟨m, hm⟩ : ∃ m, j - d = m + 1 := ⟨j - d - 1, by omega⟩
        have hm' : j - (d + 1) = m := by omega
        have hmN : m < p.cells := by omega
        have h0 := ih (by omega)
        rw [hm] at h0
        rw [hm']
        have h1 := hstep n hn m hmN
        have h2 := (hcon.ok g hg).phys m hmN
        have h3 := hfine m hmN g hg
        have h5 : (-(2 * p.angleX n) + sigma (p.mm m) g * p.dx m) * e g n m
            = (-(2 * p.angleX n) - sigma (p.mm m) g * p.dx m) * e g n (m + 1) + 2 * p.dx m * q m := by
          linear_combination h1
        have hcoef : 0 < -(2 * p.angleX n) + sigma (p.mm m) g * p.dx m := by nlinarith [h2.1, h2.2]
        have : 0 < (-(2 * p.angleX n) + sigma (p.mm m) g * p.dx m) * e g n m := by
          rw [h5]
          exact add_pos_of_pos_of_nonneg (mul_pos (by linarith) h0)
            (mul_nonneg (by have := h2.1; positivity) (hq0 _ hmN))
        exact (pos_iff_pos_of_mul_pos this).mp hcoef
    have hjd := key (j - i) (by omega)
    rw [show j - (j - i) = i by omega] at hjd
    exact hcell n hn hw i hi (add_pos_of_pos_of_nonneg hjd (he g hg n hn (i + 1) hi))

/-! ### One generation of neutrons -/

/-- Every fission spectrum reaches every group: group `g` gets at least the fraction `theta` of the neutrons. -/
def SpectrumPositive (p : Problem K) (F : ℕ → ℕ → ℕ → K) (theta : K) : Prop :=
  ∀ i < p.cells, ∀ g < p.groups, ∀ g' < p.groups, theta * ∑ h ∈ range p.groups, F (p.mm i) h g' ≤ F (p.mm i) g g'

/-- The flux of the next generation lies between two multiples of the number of neutrons born. -/
theorem generation_bounds (hc : 0 ≤ c) (hc1 : c < 1) (hcon : Contractive p sigma xs c) (hF : EmissionNonneg p F)
    (hN : 0 < p.cells) (hG : 0 < p.groups) (hsp : Spreads p sigma) {theta : K} (ht : 0 < theta)
    (hspec : SpectrumPositive p F theta) :
    ∃ m M : K, 0 < m ∧ 0 < M ∧ ∀ f out, (∀ i < p.cells, ∀ g < p.groups, 0 ≤ f i g) →
      Answers p sigma xs (emission p F f) out → ∀ i < p.cells, ∀ g < p.groups,
        m * totalProduction p F f ≤ out i g ∧ out i g ≤ M * totalProduction p F f := by
  choose u hu using fun j : ℕ => answers_exists hc hc1 hcon (fun i _ : ℕ => if i = j then (1 : K) else 0)
  have hunit : ∀ j, ∀ i < p.cells, ∀ g < p.groups, (0 : K) ≤ (fun i _ : ℕ => if i = j then (1 : K) else 0) i g :=
    fun j i _ g _ => by dsimp only; split_ifs <;> norm_num
  have hupos : ∀ j < p.cells, ∀ i < p.cells, ∀ g < p.groups, 0 < u j i g := fun j hj i hi g hg =>
    answers_pos hc1 hcon hsp (hu j) (hunit j) hg hj (by simp) i hi
  have hne : ((range p.cells ×ˢ range p.cells) ×ˢ range p.groups).Nonempty := ⟨((0, 0), 0), by simp [hN, hG]⟩
  obtain ⟨x, hx, hmin⟩ := exists_min_image _ (fun a : (ℕ × ℕ) × ℕ => u a.1.1 a.1.2 a.2) hne
  obtain ⟨y, hy, hmax⟩ := exists_max_image _ (fun a : (ℕ × ℕ) × ℕ => u a.1.1 a.1.2 a.2) hne
  have hx' : x.1.1 < p.cells ∧ x.1.2 < p.cells ∧ x.2 < p.groups := by simpa [and_assoc] using hx
  have hy' : y.1.1 < p.cells ∧ y.1.2 < p.cells ∧ y.2 < p.groups := by simpa [and_assoc] using hy
  refine ⟨theta * u x.1.1 x.1.2 x.2, u y.1.1 y.1.2 y.2, mul_pos ht (hupos _ hx'.1 _ hx'.2.1 _ hx'.2.2),
    hupos _ hy'.1 _ hy'.2.1 _ hy'.2.2, fun f out hf hout => ?_⟩
  -- neutrons born per cell
  set b : ℕ → K := fun j => ∑ g ∈ range p.groups, emission p F f j g with hb
  have hem : ∀ j < p.cells, ∀ g < p.groups, 0 ≤ emission p F f j g := fun j hj g hg =>
    sum_nonneg fun g' hg' => mul_nonneg (hF j hj g hg g' (mem_range.mp hg')) (hf j hj g' (mem_range.mp hg'))
  have hb0 : ∀ j < p.cells, 0 ≤ b j := fun j hj => sum_nonneg fun g hg => hem j hj g (mem_range.mp hg)
  have hprod : totalProduction p F f = ∑ j ∈ range p.cells, b j := rfl
  have hup : ∀ j < p.cells, ∀ g < p.groups, emission p F f j g ≤ b j := fun j hj g hg =>
    single_le_sum (f := fun g => emission p F f j g) (fun g' hg' => hem j hj g' (mem_range.mp hg')) (mem_range.mpr hg)
  have hlow : ∀ j < p.cells, ∀ g < p.groups, theta * b j ≤ emission p F f j g := by
    intro j hj g hg
    have : b j = ∑ g' ∈ range p.groups, (∑ h ∈ range p.groups, F (p.mm j) h g') * f j g' := by
      simp only [hb, emission]
      rw [sum_comm]
      exact sum_congr rfl fun g' _ => by rw [sum_mul]
    rw [this, mul_sum]
    refine sum_le_sum fun g' hg' => ?_
    rw [← mul_assoc]
    exact mul_le_mul_of_nonneg_right (hspec j hj g hg g' (mem_range.mp hg')) (hf j hj g' (mem_range.mp hg'))
  have hsum := answers_sum b (fun j i _ => if i = j then (1 : K) else 0) u p.cells fun j _ => hu j
  have hpick : ∀ i < p.cells, (∑ j ∈ range p.cells, b j * (if i = j then (1 : K) else 0)) = b i := fun i hi => by
    simp [hi]
  intro i hi g hg
  constructor
  · have h1 := answers_mono hc1 hcon (answers_linear theta 0 hsum hsum) hout (fun i hi g hg => by
      rw [hpick i hi, zero_mul, add_zero]; exact hlow i hi g hg) i hi g hg
    refine le_trans ?_ h1
    rw [zero_mul, add_zero, mul_assoc, hprod, mul_sum]
    refine mul_le_mul_of_nonneg_left (sum_le_sum fun j hj => ?_) ht.le
    have hj := mem_range.mp hj
    rw [mul_comm]
    exact mul_le_mul_of_nonneg_left (hmin ((j, i), g) (by simp [hj, hi, hg])) (hb0 j hj)
  · have h1 := answers_mono hc1 hcon hout hsum (fun i hi g hg => by
      rw [hpick i hi]; exact hup i hi g hg) i hi g hg
    refine h1.trans ?_
    rw [hprod, mul_sum]
    refine sum_le_sum fun j hj => ?_
    have hj := mem_range.mp hj
    rw [mul_comm (u y.1.1 y.1.2 y.2)]
    exact mul_le_mul_of_nonneg_left (hmax ((j, i), g) (by simp [hj, hi, hg])) (hb0 j hj)

theorem emission_linear (a b : K) (f f' : ℕ → ℕ → K) (i g : ℕ) :
    emission p F (fun i g => a * f i g + b * f' i g) i g = a * emission p F f i g + b * emission p F f' i g := by
  unfold emission
  rw [mul_sum, mul_sum, ← sum_add_distrib]
  exact sum_congr rfl fun _ _ => by ring

theorem totalProduction_linear (a b : K) (f f' : ℕ → ℕ → K) :
    totalProduction p F (fun i g => a * f i g + b * f' i g) = a * totalProduction p F f + b * totalProduction p F f' := by
  have h : ∀ f, totalProduction p F f = ∑ i ∈ range p.cells, ∑ g ∈ range p.groups, emission p F f i g := fun _ => rfl
  simp only [h, emission_linear]
  simp only [sum_add_distrib, ← mul_sum]

/-- Two fluxes come closer to each other in one generation: if `a y ≤ x ≤ b y` and `r` is the ratio of their
productions, the next generations satisfy `a' y1 ≤ x1 ≤ b' y1` with `a' = a + m/M (r - a)`, `b' = b - m/M (b - r)`,
so that `b' - a' = (1 - m/M) (b - a)`. -/
theorem generation_contracts (hc1 : c < 1) (hcon : Contractive p sigma xs c) {m M : K} (hm : 0 < m) (hM : 0 < M)
    (hbounds : ∀ f out, (∀ i < p.cells, ∀ g < p.groups, 0 ≤ f i g) → Answers p sigma xs (emission p F f) out →
      ∀ i < p.cells, ∀ g < p.groups, m * totalProduction p F f ≤ out i g ∧ out i g ≤ M * totalProduction p F f)
    {x y x1 y1 : ℕ → ℕ → K} {a b : K} (hF : EmissionNonneg p F)
    (hy : ∀ i < p.cells, ∀ g < p.groups, 0 ≤ y i g) (hP : 0 < totalProduction p F y)
    (hxy : ∀ i < p.cells, ∀ g < p.groups, a * y i g ≤ x i g ∧ x i g ≤ b * y i g)
    (hx1 : Answers p sigma xs (emission p F x) x1) (hy1 : Answers p sigma xs (emission p F y) y1) :
    a ≤ totalProduction p F x / totalProduction p F y ∧ totalProduction p F x / totalProduction p F y ≤ b ∧
      ∀ i < p.cells, ∀ g < p.groups,
        (a + m / M * (totalProduction p F x / totalProduction p F y - a)) * y1 i g ≤ x1 i g ∧
        x1 i g ≤ (b - m / M * (b - totalProduction p F x / totalProduction p F y)) * y1 i g := by
  set P := totalProduction p F with hPdef
  set r := P x / P y with hr
  have hPx : a * P y ≤ P x ∧ P x ≤ b * P y := by
    constructor
    · rw [hPdef, ← totalProduction_smul]; exact totalProduction_mono hF fun i hi g hg => (hxy i hi g hg).1
    · rw [hPdef, ← totalProduction_smul]; exact totalProduction_mono hF fun i hi g hg => (hxy i hi g hg).2
  have hra : a ≤ r := (le_div_iff₀ hP).mpr hPx.1
  have hrb : r ≤ b := (div_le_iff₀ hP).mpr hPx.2
  have ht : 0 ≤ m / M := (div_pos hm hM).le
  have key : ∀ (s t : K) (f f1 : ℕ → ℕ → K), (∀ i < p.cells, ∀ g < p.groups, 0 ≤ f i g) →
      Answers p sigma xs (emission p F f) f1 → ∀ i < p.cells, ∀ g < p.groups,
        m / M * (P f / P y) * y1 i g ≤ f1 i g := by
    intro s t f f1 hf hf1 i hi g hg
    have h1 := (hbounds f f1 hf hf1 i hi g hg).1
    have h2 := (hbounds y y1 hy hy1 i hi g hg).2
    have hPf : 0 ≤ P f := totalProduction_nonneg hF hf
    refine le_trans ?_ h1
    calc m / M * (P f / P y) * y1 i g ≤ m / M * (P f / P y) * (M * P y) :=
          mul_le_mul_of_nonneg_left h2 (mul_nonneg ht (div_nonneg hPf hP.le))
      _ = m * P f := by field_simp
  have hgen : ∀ (s t : K), Answers p sigma xs (emission p F fun i g => s * x i g + t * y i g)
      (fun i g => s * x1 i g + t * y1 i g) := fun s t =>
    answers_congr (answers_linear s t hx1 hy1) (fun i _ g _ => (emission_linear s t x y i g).symm) (fun _ _ _ _ => rfl)
  refine ⟨hra, hrb, fun i hi g hg => ⟨?_, ?_⟩⟩
  · have := key 1 (-a) _ _ (fun i hi g hg => by have := (hxy i hi g hg).1; linarith) (hgen 1 (-a)) i hi g hg
    rw [hPdef, totalProduction_linear, ← hPdef] at this
    have e : (1 * P x + -a * P y) / P y = r - a := by rw [hr]; field_simp; ring
    rw [e] at this
    linarith
  · have := key (-1) b _ _ (fun i hi g hg => by have := (hxy i hi g hg).2; linarith) (hgen (-1) b) i hi g hg
    rw [hPdef, totalProduction_linear, ← hPdef] at this
    have e : (-1 * P x + b * P y) / P y = b - r := by rw [hr]; field_simp; ring
    rw [e] at this
    linarith

theorem production_pos (hF : EmissionNonneg p F) (hN : 0 < p.cells) (hG : 0 < p.groups)
    (hP1 : 0 < totalProduction p F fun _ _ => 1) {f : ℕ → ℕ → K} (hf : ∀ i < p.cells, ∀ g < p.groups, 0 < f i g) :
    0 < totalProduction p F f := by
  obtain ⟨x, hx, hmin⟩ := exists_min_image (range p.cells ×ˢ range p.groups) (fun a : ℕ × ℕ => f a.1 a.2)
    ⟨(0, 0), by simp [hN, hG]⟩
  have hx' : x.1 < p.cells ∧ x.2 < p.groups := by simpa using hx
  have h1 : totalProduction p F (fun _ _ => f x.1 x.2 * 1) ≤ totalProduction p F f :=
    totalProduction_mono hF fun i hi g hg => by rw [mul_one]; exact hmin (i, g) (by simp [hi, hg])
  refine lt_of_lt_of_le ?_ h1
  rw [totalProduction_smul]
  exact mul_pos (hf _ hx'.1 _ hx'.2) hP1

theorem eigen_answers {phi : ℕ → ℕ → K} {k : K} {psi : ℕ → ℕ → ℕ → K} (hk : k ≠ 0)
    (h : KEigenpair p sigma xs F phi k psi) : Answers p sigma xs (emission p F phi) fun i g => k * phi i g := by
  have h1 := eigen_scaled hk h 1
  refine ⟨_, solves_congr_flux (solves_congr h1 fun i hi n hn g hg => ?_) fun i _ g _ => by ring⟩
  simp only [bidx_full _ _ hn, bidx_full _ _ hg, emission, one_mul]

theorem bounds_ordered (hc : 0 ≤ c) (hc1 : c < 1) (hcon : Contractive p sigma xs c) (hN : 0 < p.cells)
    (hG : 0 < p.groups) (hP1 : 0 < totalProduction p F fun _ _ => 1) {m M : K}
    (hbounds : ∀ f out, (∀ i < p.cells, ∀ g < p.groups, 0 ≤ f i g) → Answers p sigma xs (emission p F f) out →
      ∀ i < p.cells, ∀ g < p.groups, m * totalProduction p F f ≤ out i g ∧ out i g ≤ M * totalProduction p F f) :
    m ≤ M := by
  obtain ⟨o, ho⟩ := answers_exists hc hc1 hcon (emission p F fun _ _ => 1)
  have h := hbounds (fun _ _ => 1) o (fun _ _ _ _ => zero_le_one) ho 0 hN 0 hG
  exact le_of_mul_le_mul_right (h.1.trans h.2) hP1

/-- C170: the fundamental mode is isolated.  When every generation of neutrons spreads over all cells and groups,
there is a ratio `q < 1` such that, next to a positive eigenpair `(phi, k)`, every other eigenpair is either the
same one (`k' = k` and `phi'` a multiple of `phi`) or smaller by that ratio, `|k'| ≤ q k`. -/
theorem C170_dominance_gap (p : Problem K) (sigma : ℕ → ℕ → K) (xs F : ℕ → ℕ → ℕ → K) (c theta : K) (hc : 0 ≤ c)
    (hc1 : c < 1) (hcon : Contractive p sigma xs c) (hF : EmissionNonneg p F) (hN : 0 < p.cells) (hG : 0 < p.groups)
    (hsp : Spreads p sigma) (ht : 0 < theta) (hspec : SpectrumPositive p F theta)
    (hP1 : 0 < totalProduction p F fun _ _ => 1) :
    ∃ q, 0 ≤ q ∧ q < 1 ∧ ∀ phi k psi phi' k' psi', 0 < k → (∀ i < p.cells, ∀ g < p.groups, 0 < phi i g) →
      KEigenpair p sigma xs F phi k psi → k' ≠ 0 → KEigenpair p sigma xs F phi' k' psi' →
      (∃ i < p.cells, ∃ g < p.groups, phi' i g ≠ 0) →
      (k' = k ∧ ∃ a, ∀ i < p.cells, ∀ g < p.groups, phi' i g = a * phi i g) ∨ |k'| ≤ q * k := by
  obtain ⟨m, M, hm, hM, hbounds⟩ := generation_bounds hc hc1 hcon hF hN hG hsp ht hspec
  have hmM := bounds_ordered hc hc1 hcon hN hG hP1 hbounds
  refine ⟨1 - m / M, sub_nonneg.mpr ((div_le_one hM).mpr hmM), sub_lt_self _ (div_pos hm hM), ?_⟩
  intro phi k psi phi' k' psi' hk hpos hpair hk' hpair' hne
  have hcne : (range p.cells ×ˢ range p.groups).Nonempty := ⟨(0, 0), by simp [hN, hG]⟩
  obtain ⟨x, hx, hmin⟩ := exists_min_image _ (fun a : ℕ × ℕ => phi' a.1 a.2 / phi a.1 a.2) hcne
  obtain ⟨y, hy, hmax⟩ := exists_max_image _ (fun a : ℕ × ℕ => phi' a.1 a.2 / phi a.1 a.2) hcne
  have hx' : x.1 < p.cells ∧ x.2 < p.groups := by simpa using hx
  have hy' : y.1 < p.cells ∧ y.2 < p.groups := by simpa using hy
  have hxp := hpos _ hx'.1 _ hx'.2
  have hyp := hpos _ hy'.1 _ hy'.2
  have hPphi := production_pos hF hN hG hP1 hpos
  obtain ⟨a, ha⟩ : ∃ a, a = phi' x.1 x.2 / phi x.1 x.2 := ⟨_, rfl⟩
  obtain ⟨b, hb⟩ : ∃ b, b = phi' y.1 y.2 / phi y.1 y.2 := ⟨_, rfl⟩
  have hab : ∀ i < p.cells, ∀ g < p.groups, a * phi i g ≤ phi' i g ∧ phi' i g ≤ b * phi i g := fun i hi g hg =>
    ⟨(le_div_iff₀ (hpos i hi g hg)).mp (ha ▸ hmin (i, g) (by simp [hi, hg])),
      (div_le_iff₀ (hpos i hi g hg)).mp (hb ▸ hmax (i, g) (by simp [hi, hg]))⟩
  have hax : phi' x.1 x.2 = a * phi x.1 x.2 := by rw [ha, div_mul_cancel₀ _ hxp.ne']
  have hby : phi' y.1 y.2 = b * phi y.1 y.2 := by rw [hb, div_mul_cancel₀ _ hyp.ne']
  obtain ⟨hra, hrb, hnext⟩ := generation_contracts hc1 hcon hm hM hbounds hF
    (fun i hi g hg => (hpos i hi g hg).le) hPphi hab (eigen_answers hk' hpair') (eigen_answers hk.ne' hpair)
  set r := totalProduction p F phi' / totalProduction p F phi with hr
  have hle : a ≤ b := hra.trans hrb
  have h1 := hnext _ hx'.1 _ hx'.2
  have h2 := hnext _ hy'.1 _ hy'.2
  rw [hax] at h1
  rw [hby] at h2
  -- the extreme ratios, freed from the flux
  have e1 : (a + m / M * (r - a)) * k ≤ k' * a ∧ k' * a ≤ (b - m / M * (b - r)) * k :=
    ⟨le_of_mul_le_mul_right (by linarith [h1.1]) hxp, le_of_mul_le_mul_right (by linarith [h1.2]) hxp⟩
  have e2 : (a + m / M * (r - a)) * k ≤ k' * b ∧ k' * b ≤ (b - m / M * (b - r)) * k :=
    ⟨le_of_mul_le_mul_right (by linarith [h2.1]) hyp, le_of_mul_le_mul_right (by linarith [h2.2]) hyp⟩
  have hgap : |k'| * (b - a) ≤ (1 - m / M) * k * (b - a) := by
    rw [← abs_of_nonneg (sub_nonneg.mpr hle), ← abs_mul, abs_of_nonneg (sub_nonneg.mpr hle)]
    refine abs_le.mpr ⟨?_, ?_⟩
    · linarith [e1.2, e2.1]
    · linarith [e1.1, e2.2]
  rcases hle.eq_or_lt with heq | hlt
  · left
    have hphi : ∀ i < p.cells, ∀ g < p.groups, phi' i g = a * phi i g := fun i hi g hg =>
      le_antisymm (heq ▸ (hab i hi g hg).2) (hab i hi g hg).1
    have hra' : r = a := le_antisymm (heq ▸ hrb) hra
    have hk'a : k' * a = k * a := by
      have g1 := e1.1
      have g2 := e1.2
      rw [← heq, hra'] at g2
      rw [hra'] at g1
      linarith
    have ha0 : a ≠ 0 := fun h0 => by
      obtain ⟨i, hi, g, hg, hne⟩ := hne
      exact hne (by rw [hphi i hi g hg, h0, zero_mul])
    exact ⟨mul_right_cancel₀ ha0 hk'a, a, hphi⟩
  · right
    exact le_of_mul_le_mul_right hgap (sub_pos.mpr hlt)

/-! ### Power iteration -/

/-- The inner source iterations of a power iteration are accurate to the relative error `eta`: whatever positive flux
and factor the fission source is made of, the flux returned lies within `1 ± eta` of the exact one. -/
def InnerAccurate (p : Problem K) (xsTotal : ℕ → ℕ → K) (xs : ℕ → ℕ → ℕ → K) (fission : Fission K) (eta : K) : Prop :=
  ∀ (flux : ℕ → ℕ → K) (keff : K) (o e : ℕ → ℕ → K), (∀ i < p.cells, ∀ g < p.groups, 0 ≤ flux i g) → 0 < keff →
    sourceIteration p xsTotal (.iso xs) (fissionSource p.groups p.mm fission flux keff) zeroBoundary flux = .ok o →
    Answers p xsTotal xs (fun i g => emission p (fissionMatrix fission) flux i g / keff) e →
    ∀ i < p.cells, ∀ g < p.groups, (1 - eta) * e i g ≤ o i g ∧ o i g ≤ (1 + eta) * e i g

/-- Down-scatter problems are solved exactly. -/
theorem downscatter_accurate (p : Problem K) (xsTotal : ℕ → ℕ → K) (xs : ℕ → ℕ → ℕ → K) (fission : Fission K) (hc1 : c < 1)
    (hcon : Contractive p xsTotal xs c) (hdown : ∀ m g g', g ≤ g' → xs m g g' = 0)
    (hf : FissionNonneg p.groups fission) : InnerAccurate p xsTotal xs fission 0 := by
  intro flux keff o e _ _ ho he i hi g hg
  obtain ⟨o', psi, h1, h2⟩ := C22_downscatter_exact p xsTotal xs (fissionSource p.groups p.mm fission flux keff)
    zeroBoundary flux hcon.ok hdown
  rw [ho] at h1
  have h1 := Except.ok.inj h1
  subst h1
  have h3 : Answers p xsTotal xs (fun i g => emission p (fissionMatrix fission) flux i g / keff) o :=
    ⟨psi, solves_congr h2 fun i hi n hn g hg => by
      rw [fissionSource_val p fission hf flux keff i n g hg]
      simp only [bidx_full _ _ hn, bidx_full _ _ hg, emission]⟩
  have := answers_unique hc1 hcon h3 he i hi g hg
  rw [this, sub_zero, add_zero, one_mul]
  exact ⟨le_rfl, le_rfl⟩

/-- What one pass of the power iteration computes: the normalised inner solution and the new factor. -/
theorem power_pass (p : Problem K) (norm : (ℕ → ℕ → K) → K) (xsTotal : ℕ → ℕ → K) (xs : ℕ → ℕ → ℕ → K)
    (fission : Fission K) (hc : 0 ≤ c) (hc1 : c < 1) (hcon : Contractive p xsTotal xs c)
    (hf : FissionNonneg p.groups fission) {eta : K} (hacc : InnerAccurate p xsTotal xs fission eta) {s s' : KState K}
    (h : powerStep p norm xsTotal (.iso xs) fission s = .ok s')
    (hflux : ∀ i < p.cells, ∀ g < p.groups, 0 ≤ s.flux i g) (hk : 0 < s.keff) :
    ∃ o x1, Answers p xsTotal xs (emission p (fissionMatrix fission) s.flux) x1 ∧
      (∀ i < p.cells, ∀ g < p.groups, (1 - eta) * (x1 i g / s.keff) ≤ o i g ∧ o i g ≤ (1 + eta) * (x1 i g / s.keff)) ∧
      s'.flux = (fun i g => o i g / norm o) ∧
      s'.keff = s.keff * totalProduction p (fissionMatrix fission) o / totalProduction p (fissionMatrix fission) s.flux := by
  obtain ⟨flux, k1, k2⟩ := powerStep_ok p norm xsTotal (.iso xs) fission hcon.ok s
  rw [h] at k2
  have k2 := Except.ok.inj k2
  obtain ⟨x1, hx1⟩ := answers_exists hc hc1 hcon (emission p (fissionMatrix fission) s.flux)
  have hscaled : Answers p xsTotal xs (fun i g => emission p (fissionMatrix fission) s.flux i g / s.keff)
      fun i g => x1 i g / s.keff :=
    answers_congr (answers_linear (1 / s.keff) 0 hx1 hx1) (fun i _ g _ => by ring) fun i _ g _ => by ring
  refine ⟨flux, x1, hx1, hacc _ _ _ _ hflux hk k1 hscaled, ?_, ?_⟩
  · rw [k2]; rfl
  · rw [k2]; exact updateKeff_eq p fission hf _ _ _

/-- One pass of the power iteration brings the flux closer to the fundamental mode. -/
theorem power_contracts (p : Problem K) (norm : (ℕ → ℕ → K) → K) (xsTotal : ℕ → ℕ → K) (xs : ℕ → ℕ → ℕ → K)
    (fission : Fission K) (hc : 0 ≤ c) (hc1 : c < 1) (hcon : Contractive p xsTotal xs c)
    (hf : FissionNonneg p.groups fission) (hF : EmissionNonneg p (fissionMatrix fission)) {m M : K} (hm : 0 < m)
    (hM : 0 < M) (hmM : m ≤ M)
    (hbounds : ∀ f out, (∀ i < p.cells, ∀ g < p.groups, 0 ≤ f i g) →
      Answers p xsTotal xs (emission p (fissionMatrix fission) f) out → ∀ i < p.cells, ∀ g < p.groups,
        m * totalProduction p (fissionMatrix fission) f ≤ out i g ∧
        out i g ≤ M * totalProduction p (fissionMatrix fission) f)
    {eta : K} (he : 0 ≤ eta) (he1 : eta < 1) (hacc : InnerAccurate p xsTotal xs fission eta)
    {phi : ℕ → ℕ → K} {k : K} {psi : ℕ → ℕ → ℕ → K} (hk : 0 < k)
    (hpair : KEigenpair p xsTotal xs (fissionMatrix fission) phi k psi)
    (hpos : ∀ i < p.cells, ∀ g < p.groups, 0 < phi i g)
    (hprod : 0 < totalProduction p (fissionMatrix fission) phi)
    (hnorm : ∀ f, (∀ i < p.cells, ∀ g < p.groups, 0 < f i g) → 0 < norm f)
    {s s' : KState K} (h : powerStep p norm xsTotal (.iso xs) fission s = .ok s') (hkeff : 0 < s.keff)
    {r E : K} (hr : 0 < r) (hE : 0 ≤ E)
    (hs : ∀ i < p.cells, ∀ g < p.groups, r * phi i g ≤ s.flux i g ∧ s.flux i g ≤ r * (1 + E) * phi i g) :
    (∃ r' > 0, ∀ i < p.cells, ∀ g < p.groups, r' * phi i g ≤ s'.flux i g ∧
        s'.flux i g ≤ r' * ((1 + eta) / (1 - eta) * (1 + (1 - m / M) * E)) * phi i g) ∧
      (1 - eta) / (1 + E) * k ≤ s'.keff ∧ s'.keff ≤ (1 + eta) * (1 + E) * k := by
  have hflux : ∀ i < p.cells, ∀ g < p.groups, 0 ≤ s.flux i g := fun i hi g hg =>
    (mul_pos hr (hpos i hi g hg)).le.trans (hs i hi g hg).1
  obtain ⟨o, x1, hx1, hox, hs1, hs2⟩ := power_pass p norm xsTotal xs fission hc hc1 hcon hf hacc h hflux hkeff
  obtain ⟨hra, hrb, hnext⟩ := generation_contracts hc1 hcon hm hM hbounds hF
    (fun i hi g hg => (hpos i hi g hg).le) hprod hs hx1 (eigen_answers hk.ne' hpair)
  obtain ⟨P, hP⟩ : ∃ P, P = totalProduction p (fissionMatrix fission) := ⟨_, rfl⟩
  rw [← hP] at hra hrb hnext hs2 hprod
  obtain ⟨rho, hrho⟩ : ∃ rho, rho = P s.flux / P phi := ⟨_, rfl⟩
  rw [← hrho] at hra hrb hnext
  have ht0 : 0 < m / M := div_pos hm hM
  have ht1 : m / M ≤ 1 := (div_le_one hM).mpr hmM
  obtain ⟨t, ht⟩ : ∃ t, t = m / M := ⟨_, rfl⟩
  rw [← ht] at ht0 ht1 hnext ⊢
  have h1e : 0 < 1 - eta := by linarith
  -- the lower multiple
  obtain ⟨a, ha⟩ : ∃ a, a = r + t * (rho - r) := ⟨_, rfl⟩
  have har : r ≤ a := by have := mul_nonneg ht0.le (sub_nonneg.mpr hra); linarith
  have hapos : 0 < a := lt_of_lt_of_le hr har
  have hb : r * (1 + E) - t * (r * (1 + E) - rho) ≤ a * (1 + (1 - t) * E) := by
    have := mul_nonneg (mul_nonneg (sub_nonneg.mpr ht1) hE) (sub_nonneg.mpr har)
    rw [ha] at this ⊢
    nlinarith
  rw [← ha] at hnext
  have hlow : ∀ i < p.cells, ∀ g < p.groups, (1 - eta) * a * k / s.keff * phi i g ≤ o i g := fun i hi g hg => by
    refine le_trans ?_ (hox i hi g hg).1
    rw [show (1 - eta) * a * k / s.keff * phi i g = (1 - eta) * (a * (k * phi i g) / s.keff) by ring]
    exact mul_le_mul_of_nonneg_left (div_le_div_of_nonneg_right (hnext i hi g hg).1 hkeff.le) h1e.le
  have hhigh : ∀ i < p.cells, ∀ g < p.groups,
      o i g ≤ (1 + eta) * (a * (1 + (1 - t) * E)) * k / s.keff * phi i g := fun i hi g hg => by
    refine (hox i hi g hg).2.trans ?_
    rw [show (1 + eta) * (a * (1 + (1 - t) * E)) * k / s.keff * phi i g
      = (1 + eta) * (a * (1 + (1 - t) * E) * (k * phi i g) / s.keff) by ring]
    refine mul_le_mul_of_nonneg_left (div_le_div_of_nonneg_right ((hnext i hi g hg).2.trans ?_) hkeff.le)
      (by linarith)
    exact mul_le_mul_of_nonneg_right hb (mul_pos hk (hpos i hi g hg)).le
  have hno : 0 < norm o := hnorm o fun i hi g hg =>
    lt_of_lt_of_le (mul_pos (div_pos (mul_pos (mul_pos h1e hapos) hk) hkeff) (hpos i hi g hg)) (hlow i hi g hg)
  refine ⟨⟨(1 - eta) * a * k / s.keff / norm o,
    div_pos (div_pos (mul_pos (mul_pos h1e hapos) hk) hkeff) hno, fun i hi g hg => ⟨?_, ?_⟩⟩, ?_, ?_⟩
  · rw [hs1]
    have := div_le_div_of_nonneg_right (hlow i hi g hg) hno.le
    calc _ = (1 - eta) * a * k / s.keff * phi i g / norm o := by ring
      _ ≤ _ := this
  · rw [hs1]
    have := div_le_div_of_nonneg_right (hhigh i hi g hg) hno.le
    refine this.trans (le_of_eq ?_)
    field_simp
  -- the factor: the productions of the two generations
  all_goals
    have hP1 : ∀ (x : K) (f f' : ℕ → ℕ → K), (∀ i < p.cells, ∀ g < p.groups, x * f i g ≤ f' i g) → x * P f ≤ P f' :=
      fun x f f' hx => by rw [hP, ← totalProduction_smul]; exact totalProduction_mono hF hx
    have hP2 : ∀ (x : K) (f f' : ℕ → ℕ → K), (∀ i < p.cells, ∀ g < p.groups, f' i g ≤ x * f i g) → P f' ≤ x * P f :=
      fun x f f' hx => by rw [hP, ← totalProduction_smul]; exact totalProduction_mono hF hx
    have hx1b : ∀ i < p.cells, ∀ g < p.groups, r * (k * phi i g) ≤ x1 i g ∧ x1 i g ≤ r * (1 + E) * (k * phi i g) :=
      fun i hi g hg => ⟨answers_mono hc1 hcon
        (answers_linear r 0 (eigen_answers hk.ne' hpair) hx1) hx1 (fun i hi g hg => by
          rw [← emission_linear]
          exact sum_le_sum fun g' hg' => mul_le_mul_of_nonneg_left
            (by beta_reduce; rw [zero_mul, add_zero]; exact (hs i hi g' (mem_range.mp hg')).1)
            (hF i hi g hg g' (mem_range.mp hg'))) i hi g hg |>.trans' (by rw [zero_mul, add_zero]),
        (answers_mono hc1 hcon hx1 (answers_linear (r * (1 + E)) 0 (eigen_answers hk.ne' hpair) hx1)
          (fun i hi g hg => by
          rw [← emission_linear]
          exact sum_le_sum fun g' hg' => mul_le_mul_of_nonneg_left
            (by beta_reduce; rw [zero_mul, add_zero]; exact (hs i hi g' (mem_range.mp hg')).2)
            (hF i hi g hg g' (mem_range.mp hg'))) i hi g hg).trans (by rw [zero_mul, add_zero])⟩
    have hPs := hP1 r phi s.flux fun i hi g hg => (hs i hi g hg).1
    have hPs' := hP2 (r * (1 + E)) phi s.flux fun i hi g hg => (hs i hi g hg).2
    have hPspos : 0 < P s.flux := lt_of_lt_of_le (mul_pos hr hprod) hPs
    rw [hs2]
  · have hPo := hP1 ((1 - eta) * r * k / s.keff) phi o fun i hi g hg => by
      refine le_trans ?_ (hox i hi g hg).1
      rw [show (1 - eta) * r * k / s.keff * phi i g = (1 - eta) * (r * (k * phi i g) / s.keff) by ring]
      exact mul_le_mul_of_nonneg_left (div_le_div_of_nonneg_right (hx1b i hi g hg).1 hkeff.le) h1e.le
    rw [le_div_iff₀ hPspos]
    calc (1 - eta) / (1 + E) * k * P s.flux ≤ (1 - eta) / (1 + E) * k * (r * (1 + E) * P phi) :=
          mul_le_mul_of_nonneg_left hPs' (by positivity)
      _ = s.keff * ((1 - eta) * r * k / s.keff * P phi) := by field_simp
      _ ≤ _ := mul_le_mul_of_nonneg_left hPo hkeff.le
  · have hPo := hP2 ((1 + eta) * (r * (1 + E)) * k / s.keff) phi o fun i hi g hg => by
      refine (hox i hi g hg).2.trans ?_
      rw [show (1 + eta) * (r * (1 + E)) * k / s.keff * phi i g
        = (1 + eta) * (r * (1 + E) * (k * phi i g) / s.keff) by ring]
      exact mul_le_mul_of_nonneg_left (div_le_div_of_nonneg_right (hx1b i hi g hg).2 hkeff.le) (by linarith)
    rw [div_le_iff₀ hPspos]
    calc s.keff * P o ≤ s.keff * ((1 + eta) * (r * (1 + E)) * k / s.keff * P phi) :=
          mul_le_mul_of_nonneg_left hPo hkeff.le
      _ = (1 + eta) * (1 + E) * k * (r * P phi) := by field_simp
      _ ≤ _ := mul_le_mul_of_nonneg_left hPs (by positivity)

/-- The first pass turns any start with some production into a flux comparable with the fundamental mode. -/
theorem power_first (p : Problem K) (norm : (ℕ → ℕ → K) → K) (xsTotal : ℕ → ℕ → K) (xs : ℕ → ℕ → ℕ → K)
    (fission : Fission K) (hc : 0 ≤ c) (hc1 : c < 1) (hcon : Contractive p xsTotal xs c)
    (hf : FissionNonneg p.groups fission) (hF : EmissionNonneg p (fissionMatrix fission)) {m M : K} (hm : 0 < m)
    (hM : 0 < M)
    (hbounds : ∀ f out, (∀ i < p.cells, ∀ g < p.groups, 0 ≤ f i g) →
      Answers p xsTotal xs (emission p (fissionMatrix fission) f) out → ∀ i < p.cells, ∀ g < p.groups,
        m * totalProduction p (fissionMatrix fission) f ≤ out i g ∧
        out i g ≤ M * totalProduction p (fissionMatrix fission) f)
    {eta : K} (he : 0 ≤ eta) (he1 : eta < 1) (hacc : InnerAccurate p xsTotal xs fission eta)
    {phi : ℕ → ℕ → K} {k : K} {psi : ℕ → ℕ → ℕ → K} (hk : 0 < k)
    (hpair : KEigenpair p xsTotal xs (fissionMatrix fission) phi k psi)
    (hpos : ∀ i < p.cells, ∀ g < p.groups, 0 < phi i g)
    (hprod : 0 < totalProduction p (fissionMatrix fission) phi)
    (hnorm : ∀ f, (∀ i < p.cells, ∀ g < p.groups, 0 < f i g) → 0 < norm f)
    {s s' : KState K} (h : powerStep p norm xsTotal (.iso xs) fission s = .ok s') (hkeff : 0 < s.keff)
    (hflux : ∀ i < p.cells, ∀ g < p.groups, 0 ≤ s.flux i g)
    (hPs : 0 < totalProduction p (fissionMatrix fission) s.flux) :
    (∃ r' > 0, ∀ i < p.cells, ∀ g < p.groups, r' * phi i g ≤ s'.flux i g ∧
        s'.flux i g ≤ r' * ((1 + eta) / (1 - eta) * (M / m) ^ 2) * phi i g) ∧ 0 < s'.keff := by
  obtain ⟨o, x1, hx1, hox, hs1, hs2⟩ := power_pass p norm xsTotal xs fission hc hc1 hcon hf hacc h hflux hkeff
  have hb1 := hbounds _ _ hflux hx1
  have hb2 := hbounds _ _ (fun i hi g hg => (hpos i hi g hg).le) (eigen_answers hk.ne' hpair)
  obtain ⟨P, hP⟩ : ∃ P, P = totalProduction p (fissionMatrix fission) := ⟨_, rfl⟩
  rw [← hP] at hb1 hb2 hs2 hprod hPs
  have h1e : 0 < 1 - eta := by linarith
  have hlow : ∀ i < p.cells, ∀ g < p.groups,
      (1 - eta) * (m * P s.flux / (M * P phi) * k) / s.keff * phi i g ≤ o i g := fun i hi g hg => by
    refine le_trans ?_ (hox i hi g hg).1
    rw [show (1 - eta) * (m * P s.flux / (M * P phi) * k) / s.keff * phi i g
      = (1 - eta) * (m * P s.flux / (M * P phi) * (k * phi i g) / s.keff) by ring]
    refine mul_le_mul_of_nonneg_left (div_le_div_of_nonneg_right (le_trans ?_ (hb1 i hi g hg).1) hkeff.le) h1e.le
    calc m * P s.flux / (M * P phi) * (k * phi i g) ≤ m * P s.flux / (M * P phi) * (M * P phi) :=
          mul_le_mul_of_nonneg_left (hb2 i hi g hg).2 (by positivity)
      _ = m * P s.flux := div_mul_cancel₀ _ (mul_pos hM hprod).ne'
  have hhigh : ∀ i < p.cells, ∀ g < p.groups,
      o i g ≤ (1 + eta) * (M * P s.flux / (m * P phi) * k) / s.keff * phi i g := fun i hi g hg => by
    refine (hox i hi g hg).2.trans ?_
    rw [show (1 + eta) * (M * P s.flux / (m * P phi) * k) / s.keff * phi i g
      = (1 + eta) * (M * P s.flux / (m * P phi) * (k * phi i g) / s.keff) by ring]
    refine mul_le_mul_of_nonneg_left (div_le_div_of_nonneg_right ((hb1 i hi g hg).2.trans ?_) hkeff.le) (by linarith)
    calc M * P s.flux = M * P s.flux / (m * P phi) * (m * P phi) := (div_mul_cancel₀ _ (mul_pos hm hprod).ne').symm
      _ ≤ _ := mul_le_mul_of_nonneg_left (hb2 i hi g hg).1 (by positivity)
  obtain ⟨a, ha⟩ : ∃ a, a = (1 - eta) * (m * P s.flux / (M * P phi) * k) / s.keff := ⟨_, rfl⟩
  have hapos : 0 < a := by rw [ha]; positivity
  have hb : (1 + eta) * (M * P s.flux / (m * P phi) * k) / s.keff = a * ((1 + eta) / (1 - eta) * (M / m) ^ 2) := by
    rw [ha]; field_simp
  rw [hb] at hhigh
  rw [← ha] at hlow
  have hno : 0 < norm o := hnorm o fun i hi g hg => lt_of_lt_of_le (mul_pos hapos (hpos i hi g hg)) (hlow i hi g hg)
  refine ⟨⟨a / norm o, div_pos hapos hno, fun i hi g hg => ⟨?_, ?_⟩⟩, ?_⟩
  · rw [hs1, div_mul_eq_mul_div]; exact div_le_div_of_nonneg_right (hlow i hi g hg) hno.le
  · rw [hs1, div_mul_eq_mul_div, div_mul_eq_mul_div]; exact div_le_div_of_nonneg_right (hhigh i hi g hg) hno.le
  · rw [hs2]
    have : a * P phi ≤ P o := by rw [hP, ← totalProduction_smul]; exact totalProduction_mono hF hlow
    exact div_pos (mul_pos hkeff (lt_of_lt_of_le (mul_pos hapos hprod) this)) hPs

/-- C171: `power_iteration` converges to the fundamental mode, geometrically and from every start.  There are a ratio
`q < 1` and a constant `E`, fixed by the problem, such that with inner iterations of relative accuracy `eta` (with
`rho = (1 + eta)/(1 - eta) q < 1`), whatever the random start, the norm and the stopping test, the flux after `j`
passes is within the factor `1 + d_j` of a multiple of the fundamental mode `phi`, and the `keff` computed in pass
`j + 1` is within that factor (and `1 ± eta`) of the eigenvalue `k`, where
`d_j = rho^(j-1) (1 + eta)/(1 - eta) E + (2 eta/(1 - eta)) / (1 - rho)`. -/
theorem C171_converges_inexact (p : Problem K) (xsTotal : ℕ → ℕ → K) (xs : ℕ → ℕ → ℕ → K) (fission : Fission K)
    (c theta : K) (hc : 0 ≤ c) (hc1 : c < 1) (hcon : Contractive p xsTotal xs c)
    (hf : FissionNonneg p.groups fission) (hF : EmissionNonneg p (fissionMatrix fission)) (hN : 0 < p.cells)
    (hG : 0 < p.groups) (hsp : Spreads p xsTotal) (ht : 0 < theta)
    (hspec : SpectrumPositive p (fissionMatrix fission) theta)
    (hP1 : 0 < totalProduction p (fissionMatrix fission) fun _ _ => 1) (phi : ℕ → ℕ → K) (k : K)
    (psi : ℕ → ℕ → ℕ → K) (hk : 0 < k) (hpair : KEigenpair p xsTotal xs (fissionMatrix fission) phi k psi)
    (hpos : ∀ i < p.cells, ∀ g < p.groups, 0 < phi i g) :
    ∃ q E, 0 ≤ q ∧ q < 1 ∧ 0 ≤ E ∧ ∀ (eta : K), 0 ≤ eta → eta < 1 → (1 + eta) / (1 - eta) * q < 1 →
      InnerAccurate p xsTotal xs fission eta → ∀ norm conv random,
      (∀ f, (∀ i < p.cells, ∀ g < p.groups, 0 ≤ f i g) → (∃ i < p.cells, ∃ g < p.groups, f i g ≠ 0) → 0 < norm f) →
      (∀ i < p.cells, ∀ g < p.groups, 0 ≤ random i g) → 0 < totalProduction p (fissionMatrix fission) random →
      ∃ x n, Run (powerStep p norm xsTotal (.iso xs) fission) (fun a b => conv a.flux b.flux) 100
          (start norm random) x n ∧
        powerIteration p norm conv xsTotal (.iso xs) fission random = .ok (x n, n) ∧
        ∀ j, 1 ≤ j → j ≤ n → ∀ d, d = ((1 + eta) / (1 - eta) * q) ^ (j - 1) * ((1 + eta) / (1 - eta) * E)
              + 2 * eta / (1 - eta) / (1 - (1 + eta) / (1 - eta) * q) →
          (∃ s > 0, ∀ i < p.cells, ∀ g < p.groups,
            s * phi i g ≤ (x j).flux i g ∧ (x j).flux i g ≤ s * (1 + d) * phi i g) ∧
          (j < n → (1 - eta) / (1 + d) * k ≤ (x (j + 1)).keff ∧ (x (j + 1)).keff ≤ (1 + eta) * (1 + d) * k) := by
  obtain ⟨m, M, hm, hM, hbounds⟩ := generation_bounds hc hc1 hcon hF hN hG hsp ht hspec
  have hmM := bounds_ordered hc hc1 hcon hN hG hP1 hbounds
  have hprod := production_pos hF hN hG hP1 hpos
  refine ⟨1 - m / M, (M / m) ^ 2, sub_nonneg.mpr ((div_le_one hM).mpr hmM), sub_lt_self _ (div_pos hm hM),
    sq_nonneg _, ?_⟩
  intro eta he he1 hrho hacc norm conv random hnorm hrand hPr
  obtain ⟨x, n, hr, hrun⟩ := C27_power_iteration_stops p norm conv xsTotal (.iso xs) fission random hcon.ok
  refine ⟨x, n, hr, hrun, ?_⟩
  have h1e : 0 < 1 - eta := by linarith
  have hnorm' : ∀ f, (∀ i < p.cells, ∀ g < p.groups, 0 < f i g) → 0 < norm f := fun f hf =>
    hnorm f (fun i hi g hg => (hf i hi g hg).le) ⟨0, hN, 0, hG, (hf 0 hN 0 hG).ne'⟩
  have hne : ∃ i < p.cells, ∃ g < p.groups, random i g ≠ 0 := by
    by_contra hcon'
    push Not at hcon'
    have : totalProduction p (fissionMatrix fission) random = 0 := by
      unfold totalProduction
      exact sum_eq_zero fun i hi => sum_eq_zero fun g _ => sum_eq_zero fun g' hg' => by
        rw [hcon' i (mem_range.mp hi) g' (mem_range.mp hg'), mul_zero]
    exact hPr.ne' this
  have hn0 : 0 < norm random := hnorm random hrand hne
  -- the start
  have hx0 : 0 < (x 0).keff := by rw [hr.start]; exact hn0
  have hx0f : ∀ i < p.cells, ∀ g < p.groups, 0 ≤ (x 0).flux i g := fun i hi g hg => by
    rw [hr.start]; exact div_nonneg (hrand i hi g hg) (abs_nonneg _)
  have hx0P : 0 < totalProduction p (fissionMatrix fission) (x 0).flux := by
    have e : (x 0).flux = fun i g => 1 / |norm random| * random i g := by
      rw [hr.start]; funext i g; simp only [start]; ring
    rw [e, totalProduction_smul]
    exact mul_pos (one_div_pos.mpr (abs_pos.mpr hn0.ne')) hPr
  obtain ⟨w, hw⟩ : ∃ w, w = (1 + eta) / (1 - eta) := ⟨_, rfl⟩
  have hw1 : 1 ≤ w := by rw [hw, one_le_div h1e]; linarith
  have hw2 : w = 1 + 2 * eta / (1 - eta) := by rw [hw]; field_simp; ring
  obtain ⟨q, hq⟩ : ∃ q, q = 1 - m / M := ⟨_, rfl⟩
  have hq0 : 0 ≤ q := hq ▸ sub_nonneg.mpr ((div_le_one hM).mpr hmM)
  rw [← hw, ← hq] at hrho ⊢
  obtain ⟨D, hD⟩ : ∃ D : ℕ → K, ∀ j, D j = (w * q) ^ (j - 1) * (w * (M / m) ^ 2)
      + 2 * eta / (1 - eta) / (1 - w * q) := ⟨_, fun _ => rfl⟩
  have hfix : 0 ≤ 2 * eta / (1 - eta) / (1 - w * q) :=
    div_nonneg (div_nonneg (by linarith) h1e.le) (by linarith)
  have hwq : 0 ≤ w * q := mul_nonneg (by linarith) hq0
  have hD0 : ∀ j, 0 ≤ D j := fun j => by
    rw [hD]
    exact add_nonneg (mul_nonneg (pow_nonneg hwq _) (mul_nonneg (by linarith) (sq_nonneg _))) hfix
  have hDs : ∀ j, 1 ≤ j → w * (1 + q * D j) = 1 + D (j + 1) := fun j hj => by
    obtain ⟨i, rfl⟩ : ∃ i, j = i + 1 := ⟨j - 1, by omega⟩
    rw [hD, hD]
    simp only [Nat.add_sub_cancel]
    have h2 : (1 - w * q) ≠ 0 := by linarith
    have h3 : 2 * eta / (1 - eta) / (1 - w * q) * (1 - w * q) = 2 * eta / (1 - eta) := div_mul_cancel₀ _ h2
    rw [pow_succ]
    linear_combination hw2 - h3
  have key : ∀ j, 1 ≤ j → j ≤ n → (∃ s > 0, ∀ i < p.cells, ∀ g < p.groups,
      s * phi i g ≤ (x j).flux i g ∧ (x j).flux i g ≤ s * (1 + D j) * phi i g) ∧ 0 < (x j).keff := by
    intro j hj
    induction j, hj using Nat.le_induction with
    | base =>
      intro hjn
      obtain ⟨⟨s, hs, hb⟩, h2⟩ := power_first p norm xsTotal xs fission hc hc1 hcon hf hF hm hM hbounds he he1 hacc hk
        hpair hpos hprod hnorm' (hr.steps 0 (by omega)) hx0 hx0f hx0P
      refine ⟨⟨s, hs, fun i hi g hg => ⟨(hb i hi g hg).1, (hb i hi g hg).2.trans ?_⟩⟩, h2⟩
      rw [← hw]
      refine mul_le_mul_of_nonneg_right (mul_le_mul_of_nonneg_left ?_ hs.le) (hpos i hi g hg).le
      rw [hD]
      simp only [Nat.sub_self, pow_zero, one_mul]
      linarith
    | succ j hj ih =>
      intro hjn
      obtain ⟨⟨s, hs, hb⟩, h2⟩ := ih (by omega)
      obtain ⟨⟨r', hr', hb'⟩, h3, _⟩ := power_contracts p norm xsTotal xs fission hc hc1 hcon hf hF hm hM hmM hbounds
        he he1 hacc hk hpair hpos hprod hnorm' (hr.steps j (by omega)) h2 hs (hD0 j) hb
      refine ⟨⟨r', hr', fun i hi g hg => ?_⟩, lt_of_lt_of_le (mul_pos (div_pos h1e ?_) hk) h3⟩
      · have := hb' i hi g hg
        rw [← hw, ← hq, hDs j hj] at this
        exact this
      · have := hD0 j; linarith
  intro j hj hjn d hd
  have hdD : d = D j := by rw [hd, hD]
  rw [hdD]
  obtain ⟨⟨s, hs, hb⟩, h2⟩ := key j hj hjn
  refine ⟨⟨s, hs, hb⟩, fun hlt => ?_⟩
  exact (power_contracts p norm xsTotal xs fission hc hc1 hcon hf hF hm hM hmM hbounds
        he he1 hacc hk hpair hpos hprod hnorm' (hr.steps j hlt) h2 hs (hD0 j) hb).2

/-- C171: on down-scatter problems, where each inner iteration is exact, the error of the flux and of `keff` falls
like `q^j`: from every start, the flux after `j` passes is within the factor `1 + q^(j-1) E` of the fundamental mode,
and the `keff` of the next pass within that factor of the eigenvalue. -/
theorem C171_converges (p : Problem K) (xsTotal : ℕ → ℕ → K) (xs : ℕ → ℕ → ℕ → K) (fission : Fission K)
    (c theta : K) (hc : 0 ≤ c) (hc1 : c < 1) (hcon : Contractive p xsTotal xs c)
    (hdown : ∀ m g g', g ≤ g' → xs m g g' = 0)
    (hf : FissionNonneg p.groups fission) (hF : EmissionNonneg p (fissionMatrix fission)) (hN : 0 < p.cells)
    (hG : 0 < p.groups) (hsp : Spreads p xsTotal) (ht : 0 < theta)
    (hspec : SpectrumPositive p (fissionMatrix fission) theta)
    (hP1 : 0 < totalProduction p (fissionMatrix fission) fun _ _ => 1) (phi : ℕ → ℕ → K) (k : K)
    (psi : ℕ → ℕ → ℕ → K) (hk : 0 < k) (hpair : KEigenpair p xsTotal xs (fissionMatrix fission) phi k psi)
    (hpos : ∀ i < p.cells, ∀ g < p.groups, 0 < phi i g) :
    ∃ q E, 0 ≤ q ∧ q < 1 ∧ 0 ≤ E ∧ ∀ norm conv random,
      (∀ f, (∀ i < p.cells, ∀ g < p.groups, 0 ≤ f i g) → (∃ i < p.cells, ∃ g < p.groups, f i g ≠ 0) → 0 < norm f) →
      (∀ i < p.cells, ∀ g < p.groups, 0 ≤ random i g) → 0 < totalProduction p (fissionMatrix fission) random →
      ∃ x n, Run (powerStep p norm xsTotal (.iso xs) fission) (fun a b => conv a.flux b.flux) 100
          (start norm random) x n ∧
        powerIteration p norm conv xsTotal (.iso xs) fission random = .ok (x n, n) ∧
        ∀ j, 1 ≤ j → j ≤ n →
          (∃ s > 0, ∀ i < p.cells, ∀ g < p.groups, s * phi i g ≤ (x j).flux i g ∧
            (x j).flux i g ≤ s * (1 + q ^ (j - 1) * E) * phi i g) ∧
          (j < n → k / (1 + q ^ (j - 1) * E) ≤ (x (j + 1)).keff ∧ (x (j + 1)).keff ≤ (1 + q ^ (j - 1) * E) * k) := by
  obtain ⟨q, E, hq, hq1, hE, h⟩ := C171_converges_inexact p xsTotal xs fission c theta hc hc1 hcon hf hF hN hG hsp ht
    hspec hP1 phi k psi hk hpair hpos
  refine ⟨q, E, hq, hq1, hE, fun norm conv random h1 h2 h3 => ?_⟩
  obtain ⟨x, n, hr, hok, h4⟩ := h 0 le_rfl one_pos (by simpa using hq1)
    (downscatter_accurate p xsTotal xs fission hc1 hcon hdown hf) norm conv random h1 h2 h3
  refine ⟨x, n, hr, hok, fun j hj hjn => ?_⟩
  obtain ⟨h5, h6⟩ := h4 j hj hjn (q ^ (j - 1) * E) (by simp)
  refine ⟨h5, fun hlt => ?_⟩
  have := h6 hlt
  rw [sub_zero, add_zero, one_mul, one_div_mul_eq_div] at this
  exact this

/-! ### What stopping by the tolerance means -/

/-- The power iteration keeps a positive start positive. -/
theorem power_positive (p : Problem K) (norm : (ℕ → ℕ → K) → K) (conv : (ℕ → ℕ → K) → (ℕ → ℕ → K) → Bool)
    (xsTotal : ℕ → ℕ → K) (xs : ℕ → ℕ → ℕ → K)
    (fission : Fission K) (hc : 0 ≤ c) (hc1 : c < 1) (hcon : Contractive p xsTotal xs c)
    (hf : FissionNonneg p.groups fission) (hF : EmissionNonneg p (fissionMatrix fission))
    (hN : 0 < p.cells) (hG : 0 < p.groups) {eta : K} (he1 : eta < 1) (hacc : InnerAccurate p xsTotal xs fission eta)
    {phi : ℕ → ℕ → K} {k : K} {psi : ℕ → ℕ → ℕ → K} (hk : 0 < k)
    (hpair : KEigenpair p xsTotal xs (fissionMatrix fission) phi k psi)
    (hpos : ∀ i < p.cells, ∀ g < p.groups, 0 < phi i g)
    (hprod : 0 < totalProduction p (fissionMatrix fission) phi)
    (hnorm : ∀ f, (∀ i < p.cells, ∀ g < p.groups, 0 < f i g) → 0 < norm f) {random : ℕ → ℕ → K}
    (hrand : ∀ i < p.cells, ∀ g < p.groups, 0 < random i g) {x : ℕ → KState K} {n : ℕ}
    (hr : Run (powerStep p norm xsTotal (.iso xs) fission) (fun a b => conv a.flux b.flux) 100 (start norm random) x n) :
    ∀ j ≤ n, (∀ i < p.cells, ∀ g < p.groups, 0 < (x j).flux i g) ∧ 0 < (x j).keff := by
  have h1e : 0 < 1 - eta := by linarith
  intro j
  induction j with
  | zero =>
    intro _
    rw [hr.start]
    exact ⟨fun i hi g hg => div_pos (hrand i hi g hg) (abs_pos.mpr (hnorm random hrand).ne'), hnorm random hrand⟩
  | succ j ih =>
    intro hj
    obtain ⟨hfl, hke⟩ := ih (by omega)
    obtain ⟨o, x1, hx1, hox, hs1, hs2⟩ := power_pass p norm xsTotal xs fission hc hc1 hcon hf hacc
      (hr.steps j (by omega)) (fun i hi g hg => (hfl i hi g hg).le) hke
    -- a multiple of the eigenvector lies below the flux
    obtain ⟨b, hb, hmin⟩ := exists_min_image (range p.cells ×ˢ range p.groups)
      (fun a : ℕ × ℕ => (x j).flux a.1 a.2 / phi a.1 a.2) ⟨(0, 0), by simp [hN, hG]⟩
    have hb' : b.1 < p.cells ∧ b.2 < p.groups := by simpa using hb
    obtain ⟨s, hs⟩ : ∃ s, s = (x j).flux b.1 b.2 / phi b.1 b.2 := ⟨_, rfl⟩
    have hspos : 0 < s := hs ▸ div_pos (hfl _ hb'.1 _ hb'.2) (hpos _ hb'.1 _ hb'.2)
    have hsle : ∀ i < p.cells, ∀ g < p.groups, s * phi i g ≤ (x j).flux i g := fun i hi g hg =>
      (le_div_iff₀ (hpos i hi g hg)).mp (hs ▸ hmin (i, g) (by simp [hi, hg]))
    have hx1pos : ∀ i < p.cells, ∀ g < p.groups, 0 < x1 i g := fun i hi g hg => by
      have := answers_mono hc1 hcon (answers_linear s 0 (eigen_answers hk.ne' hpair) hx1) hx1 (fun i hi g hg => by
        rw [← emission_linear]
        exact sum_le_sum fun g' hg' => mul_le_mul_of_nonneg_left
          (by beta_reduce; rw [zero_mul, add_zero]; exact hsle i hi g' (mem_range.mp hg'))
          (hF i hi g hg g' (mem_range.mp hg'))) i hi g hg
      rw [zero_mul, add_zero] at this
      exact lt_of_lt_of_le (mul_pos hspos (mul_pos hk (hpos i hi g hg))) this
    have hopos : ∀ i < p.cells, ∀ g < p.groups, 0 < o i g := fun i hi g hg =>
      lt_of_lt_of_le (mul_pos h1e (div_pos (hx1pos i hi g hg) hke)) (hox i hi g hg).1
    have hP : ∀ f : ℕ → ℕ → K, (∀ i < p.cells, ∀ g < p.groups, 0 < f i g) →
        0 < totalProduction p (fissionMatrix fission) f := by
      intro f hfp
      obtain ⟨b, hb, hmin⟩ := exists_min_image (range p.cells ×ˢ range p.groups)
        (fun a : ℕ × ℕ => f a.1 a.2 / phi a.1 a.2) ⟨(0, 0), by simp [hN, hG]⟩
      have hb' : b.1 < p.cells ∧ b.2 < p.groups := by simpa using hb
      refine lt_of_lt_of_le (mul_pos (div_pos (hfp _ hb'.1 _ hb'.2) (hpos _ hb'.1 _ hb'.2)) hprod) ?_
      rw [← totalProduction_smul]
      exact totalProduction_mono hF fun i hi g hg =>
        (le_div_iff₀ (hpos i hi g hg)).mp (hmin (i, g) (by simp [hi, hg]))
    refine ⟨fun i hi g hg => ?_, ?_⟩
    · rw [hs1]; exact div_pos (hopos i hi g hg) (hnorm o hopos)
    · rw [hs2]; exact div_pos (mul_pos hke (hP o hopos)) (hP _ hfl)

/-- C172: what it means that `power_iteration` stopped by its tolerance.  With the convergence test of the code
(`norm((flux - flux_old)/flux/cells) < tol`) and `tau = cells * tol < 1`, a run from a positive start that stops before
the 100th pass returns a `keff` whose relative distance to the eigenvalue `k` of the positive mode is given by `tau`
and the accuracy `eta` of the inner iterations alone:
`(1 - eta)(1 - tau)/(1 + tau) <= keff/k <= (1 + eta)(1 + tau)/(1 - tau)`. -/
theorem C172_tolerance_bounds_keff (p : Problem K) (norm : (ℕ → ℕ → K) → K) (tol : K) (htol : 0 ≤ tol)
    (xsTotal : ℕ → ℕ → K) (xs : ℕ → ℕ → ℕ → K)
    (fission : Fission K) (c : K) (hc : 0 ≤ c) (hc1 : c < 1) (hcon : Contractive p xsTotal xs c)
    (hf : FissionNonneg p.groups fission) (hF : EmissionNonneg p (fissionMatrix fission))
    (hN : 0 < p.cells) (hG : 0 < p.groups) (eta : K) (he : 0 ≤ eta) (he1 : eta < 1)
    (hacc : InnerAccurate p xsTotal xs fission eta)
    (phi : ℕ → ℕ → K) (k : K) (psi : ℕ → ℕ → ℕ → K) (hk : 0 < k)
    (hpair : KEigenpair p xsTotal xs (fissionMatrix fission) phi k psi)
    (hpos : ∀ i < p.cells, ∀ g < p.groups, 0 < phi i g)
    (hprod : 0 < totalProduction p (fissionMatrix fission) phi)
    (hnorm : ∀ f, (∀ i < p.cells, ∀ g < p.groups, 0 < f i g) → 0 < norm f) (random : ℕ → ℕ → K)
    (hrand : ∀ i < p.cells, ∀ g < p.groups, 0 < random i g) (tau : K) (htau : tau = p.cells * tol) (htau1 : tau < 1) :
    ∃ s n, powerIteration p norm (fluxConverged2 p.cells p.groups tol) xsTotal (.iso xs) fission random = .ok (s, n) ∧
      (n < 100 → (1 - eta) * (1 - tau) / (1 + tau) * k ≤ s.keff ∧ s.keff ≤ (1 + eta) * (1 + tau) / (1 - tau) * k) := by
  obtain ⟨x, n, hr, hrun⟩ := C27_power_iteration_stops p norm (fluxConverged2 p.cells p.groups tol) xsTotal (.iso xs)
    fission random hcon.ok
  refine ⟨x n, n, hrun, fun hlt => ?_⟩
  have hall := power_positive p norm _ xsTotal xs fission hc hc1 hcon hf hF hN hG he1 hacc hk hpair hpos hprod hnorm
    hrand hr
  have hn := hr.pos
  obtain ⟨j, rfl⟩ : ∃ j, n = j + 1 := ⟨n - 1, by omega⟩
  obtain ⟨hfl, hke⟩ := hall j (by omega)
  obtain ⟨hfl', hke'⟩ := hall (j + 1) le_rfl
  have hrel := converged2_rel htol (hr.stopped hlt)
  simp only [Nat.add_sub_cancel] at hrel
  have hτ0 : 0 ≤ tau := htau ▸ mul_nonneg (Nat.cast_nonneg _) htol
  have h1t : 0 < 1 - tau := by linarith
  have h1t' : 0 < 1 + tau := by linarith
  have h1e : 0 < 1 - eta := by linarith
  have h1e' : 0 < 1 + eta := by linarith
  obtain ⟨u, hu⟩ : ∃ u, u = (x j).flux := ⟨_, rfl⟩
  obtain ⟨v, hv⟩ : ∃ v, v = (x (j + 1)).flux := ⟨_, rfl⟩
  rw [← hu, ← hv] at hrel
  rw [← hu] at hfl
  rw [← hv] at hfl'
  have huv : ∀ i < p.cells, ∀ g < p.groups, (1 - tau) * v i g ≤ u i g ∧ u i g ≤ (1 + tau) * v i g := by
    intro i hi g hg
    have h1 := hrel i hi g hg
    rw [← htau, ← mul_pow] at h1
    have h2 := sq_le_sq.mp h1
    rw [abs_of_nonneg (mul_nonneg hτ0 (hfl' i hi g hg).le)] at h2
    have h3 := abs_le.mp h2
    constructor <;> linarith [h3.1, h3.2]
  obtain ⟨o, x1, hx1, hox, hs1, hs2⟩ := power_pass p norm xsTotal xs fission hc hc1 hcon hf hacc
    (hr.steps j (by omega)) (fun i hi g hg => hu ▸ (hfl i hi g hg).le) hke
  rw [← hu] at hx1 hs2
  rw [← hv] at hs1
  obtain ⟨P, hP⟩ : ∃ P, P = totalProduction p (fissionMatrix fission) := ⟨_, rfl⟩
  rw [← hP] at hs2 hprod
  have hno : norm o ≠ 0 := fun h0 => by
    have := hfl' 0 hN 0 hG
    rw [hs1, h0] at this
    beta_reduce at this
    rw [div_zero] at this
    exact lt_irrefl _ this
  -- `keff o = lam v`
  obtain ⟨lam, hlam⟩ : ∃ lam, lam = (x j).keff * norm o := ⟨_, rfl⟩
  have hov : ∀ i g, (x j).keff * o i g = lam * v i g := fun i g => by
    rw [hs1, hlam]; field_simp
  have hTu : ∀ i < p.cells, ∀ g < p.groups, (1 - eta) * x1 i g ≤ lam * v i g ∧ lam * v i g ≤ (1 + eta) * x1 i g := by
    intro i hi g hg
    rw [← hov]
    have h1 := hox i hi g hg
    have e : ∀ a : K, (x j).keff * (a * (x1 i g / (x j).keff)) = a * x1 i g := fun a => by field_simp
    rw [← e, ← e]
    exact ⟨mul_le_mul_of_nonneg_left h1.1 hke.le, mul_le_mul_of_nonneg_left h1.2 hke.le⟩
  have hP1 : ∀ (z : K) (f f' : ℕ → ℕ → K), (∀ i < p.cells, ∀ g < p.groups, z * f i g ≤ f' i g) → z * P f ≤ P f' :=
    fun z f f' hz => by rw [hP, ← totalProduction_smul]; exact totalProduction_mono hF hz
  have hP2 : ∀ (z : K) (f f' : ℕ → ℕ → K), (∀ i < p.cells, ∀ g < p.groups, f' i g ≤ z * f i g) → P f' ≤ z * P f :=
    fun z f f' hz => by rw [hP, ← totalProduction_smul]; exact totalProduction_mono hF hz
  have hcells : (range p.cells ×ˢ range p.groups).Nonempty := ⟨(0, 0), by simp [hN, hG]⟩
  have hPpos : ∀ f : ℕ → ℕ → K, (∀ i < p.cells, ∀ g < p.groups, 0 < f i g) → 0 < P f := by
    intro f hfp
    obtain ⟨b, hb, hmin⟩ := exists_min_image _ (fun a : ℕ × ℕ => f a.1 a.2 / phi a.1 a.2) hcells
    have hb' : b.1 < p.cells ∧ b.2 < p.groups := by simpa using hb
    exact lt_of_lt_of_le (mul_pos (div_pos (hfp _ hb'.1 _ hb'.2) (hpos _ hb'.1 _ hb'.2)) hprod)
      (hP1 _ phi f fun i hi g hg => (le_div_iff₀ (hpos i hi g hg)).mp (hmin (i, g) (by simp [hi, hg])))
  have hPu := hPpos u hfl
  have hPv := hPpos v hfl'
  -- the new factor is `lam` up to `tau`
  have hkeff : (x (j + 1)).keff * P u = lam * P v := by
    rw [hs2, div_mul_cancel₀ _ hPu.ne', hlam, mul_assoc]
    congr 1
    rw [hP, ← totalProduction_smul]
    congr 1
    funext i g
    rw [hs1]; field_simp
  have hPuv : (1 - tau) * P v ≤ P u ∧ P u ≤ (1 + tau) * P v :=
    ⟨hP1 _ _ _ fun i hi g hg => (huv i hi g hg).1, hP2 _ _ _ fun i hi g hg => (huv i hi g hg).2⟩
  have hlampos : 0 < lam := by
    have : 0 < lam * P v := hkeff ▸ mul_pos hke' hPu
    exact (pos_iff_pos_of_mul_pos this).mpr hPv
  have hk1 : (x (j + 1)).keff * (1 - tau) ≤ lam := by
    refine le_of_mul_le_mul_right ?_ hPv
    rw [← hkeff, mul_assoc]
    exact mul_le_mul_of_nonneg_left hPuv.1 hke'.le
  have hk2 : lam ≤ (x (j + 1)).keff * (1 + tau) := by
    refine le_of_mul_le_mul_right ?_ hPv
    rw [← hkeff, mul_assoc]
    exact mul_le_mul_of_nonneg_left hPuv.2 hke'.le
  -- the eigenvalue is `lam` up to `eta` and `tau`
  have hl1 : lam ≤ k * ((1 + eta) * (1 + tau)) := by
    obtain ⟨b, hb, hmin⟩ := exists_min_image _ (fun a : ℕ × ℕ => phi a.1 a.2 / u a.1 a.2) hcells
    have hb' : b.1 < p.cells ∧ b.2 < p.groups := by simpa using hb
    have hub := hfl _ hb'.1 _ hb'.2
    obtain ⟨t, ht⟩ : ∃ t, t = phi b.1 b.2 / u b.1 b.2 := ⟨_, rfl⟩
    have htpos : 0 < t := ht ▸ div_pos (hpos _ hb'.1 _ hb'.2) hub
    have htle : ∀ i < p.cells, ∀ g < p.groups, t * u i g ≤ phi i g := fun i hi g hg =>
      (le_div_iff₀ (hfl i hi g hg)).mp (ht ▸ hmin (i, g) (by simp [hi, hg]))
    have := answers_mono hc1 hcon (answers_linear t 0 hx1 hx1) (eigen_answers hk.ne' hpair) (fun i hi g hg => by
      rw [← emission_linear]
      exact sum_le_sum fun g' hg' => mul_le_mul_of_nonneg_left
        (by beta_reduce; rw [zero_mul, add_zero]; exact htle i hi g' (mem_range.mp hg'))
        (hF i hi g hg g' (mem_range.mp hg'))) b.1 hb'.1 b.2 hb'.2
    rw [zero_mul, add_zero] at this
    have e : phi b.1 b.2 = t * u b.1 b.2 := by rw [ht, div_mul_cancel₀ _ hub.ne']
    have h2 : x1 b.1 b.2 ≤ k * u b.1 b.2 := le_of_mul_le_mul_left (by rw [e] at this; linarith) htpos
    refine le_of_mul_le_mul_right ?_ (hfl' _ hb'.1 _ hb'.2)
    calc lam * v b.1 b.2 ≤ (1 + eta) * x1 b.1 b.2 := (hTu _ hb'.1 _ hb'.2).2
      _ ≤ (1 + eta) * (k * u b.1 b.2) := mul_le_mul_of_nonneg_left h2 h1e'.le
      _ ≤ (1 + eta) * (k * ((1 + tau) * v b.1 b.2)) := mul_le_mul_of_nonneg_left
          (mul_le_mul_of_nonneg_left (huv _ hb'.1 _ hb'.2).2 hk.le) h1e'.le
      _ = _ := by ring
  have hl2 : k * ((1 - eta) * (1 - tau)) ≤ lam := by
    obtain ⟨b, hb, hmax⟩ := exists_max_image _ (fun a : ℕ × ℕ => phi a.1 a.2 / u a.1 a.2) hcells
    have hb' : b.1 < p.cells ∧ b.2 < p.groups := by simpa using hb
    have hub := hfl _ hb'.1 _ hb'.2
    obtain ⟨t, ht⟩ : ∃ t, t = phi b.1 b.2 / u b.1 b.2 := ⟨_, rfl⟩
    have htpos : 0 < t := ht ▸ div_pos (hpos _ hb'.1 _ hb'.2) hub
    have htle : ∀ i < p.cells, ∀ g < p.groups, phi i g ≤ t * u i g := fun i hi g hg =>
      (div_le_iff₀ (hfl i hi g hg)).mp (ht ▸ hmax (i, g) (by simp [hi, hg]))
    have := answers_mono hc1 hcon (eigen_answers hk.ne' hpair) (answers_linear t 0 hx1 hx1) (fun i hi g hg => by
      rw [← emission_linear]
      exact sum_le_sum fun g' hg' => mul_le_mul_of_nonneg_left
        (by beta_reduce; rw [zero_mul, add_zero]; exact htle i hi g' (mem_range.mp hg'))
        (hF i hi g hg g' (mem_range.mp hg'))) b.1 hb'.1 b.2 hb'.2
    rw [zero_mul, add_zero] at this
    have e : phi b.1 b.2 = t * u b.1 b.2 := by rw [ht, div_mul_cancel₀ _ hub.ne']
    have h2 : k * u b.1 b.2 ≤ x1 b.1 b.2 := le_of_mul_le_mul_left (by rw [e] at this; linarith) htpos
    refine le_of_mul_le_mul_right ?_ (hfl' _ hb'.1 _ hb'.2)
    calc k * ((1 - eta) * (1 - tau)) * v b.1 b.2 = (1 - eta) * (k * ((1 - tau) * v b.1 b.2)) := by ring
      _ ≤ (1 - eta) * (k * u b.1 b.2) := mul_le_mul_of_nonneg_left
          (mul_le_mul_of_nonneg_left (huv _ hb'.1 _ hb'.2).1 hk.le) h1e.le
      _ ≤ (1 - eta) * x1 b.1 b.2 := mul_le_mul_of_nonneg_left h2 h1e.le
      _ ≤ _ := (hTu _ hb'.1 _ hb'.2).1
  constructor
  · rw [div_mul_eq_mul_div, div_le_iff₀ h1t']
    linarith
  · rw [div_mul_eq_mul_div, le_div_iff₀ h1t]
    linarith

end General

/-! ### The fundamental mode exists -/

section Real

variable {p : Problem ℝ} {sigma : ℕ → ℕ → ℝ} {xs F : ℕ → ℕ → ℕ → ℝ} {c : ℝ}

/-- The brackets of the successive generations: `a' = a + t (r - a)`, `b' = b - t (b - r)`. -/
def brackets (t a b : ℝ) (r : ℕ → ℝ) : ℕ → ℝ × ℝ
  | 0 => (a, b)
  | n + 1 => ((brackets t a b r n).1 + t * (r n - (brackets t a b r n).1),
      (brackets t a b r n).2 - t * ((brackets t a b r n).2 - r n))

set_option maxHeartbeats 2000000 in
/-- C170: the fundamental mode exists: when every generation of neutrons spreads over all cells and groups and there
is some fission, there are a flux positive in all cells and groups and a positive factor `k` that form an eigenpair. -/
theorem C170_fundamental_mode (p : Problem ℝ) (sigma : ℕ → ℕ → ℝ) (xs F : ℕ → ℕ → ℕ → ℝ) (c theta : ℝ) (hc : 0 ≤ c)
    (hc1 : c < 1) (hcon : Contractive p sigma xs c) (hF : EmissionNonneg p F) (hN : 0 < p.cells) (hG : 0 < p.groups)
    (hsp : Spreads p sigma) (ht : 0 < theta) (hspec : SpectrumPositive p F theta)
    (hP1 : 0 < totalProduction p F fun _ _ => 1) :
    ∃ phi k psi, 0 < k ∧ (∀ i < p.cells, ∀ g < p.groups, 0 < phi i g) ∧ KEigenpair p sigma xs F phi k psi := by
  obtain ⟨m, M, hm, hM, hbounds⟩ := generation_bounds hc hc1 hcon hF hN hG hsp ht hspec
  have hmM := bounds_ordered hc hc1 hcon hN hG hP1 hbounds
  choose T hT using fun f => answers_exists hc hc1 hcon (emission p F f)
  obtain ⟨P, hP⟩ : ∃ P, P = totalProduction p F := ⟨_, rfl⟩
  rw [← hP] at hP1 hbounds
  have hPp : ∀ f : ℕ → ℕ → ℝ, (∀ i < p.cells, ∀ g < p.groups, 0 < f i g) → 0 < P f := fun f hf => by
    rw [hP] at hP1 ⊢; exact production_pos hF hN hG hP1 hf
  have hgc : ∀ (x y : ℕ → ℕ → ℝ) (a b : ℝ), (∀ i < p.cells, ∀ g < p.groups, 0 ≤ y i g) → 0 < P y →
      (∀ i < p.cells, ∀ g < p.groups, a * y i g ≤ x i g ∧ x i g ≤ b * y i g) →
      a ≤ P x / P y ∧ P x / P y ≤ b ∧ ∀ i < p.cells, ∀ g < p.groups,
        (a + m / M * (P x / P y - a)) * T y i g ≤ T x i g ∧ T x i g ≤ (b - m / M * (b - P x / P y)) * T y i g := by
    intro x y a b h1 h2 h3
    rw [hP] at hbounds h2 ⊢
    exact generation_contracts hc1 hcon hm hM hbounds hF h1 h2 h3 (hT x) (hT y)
  have hTpos : ∀ f, (∀ i < p.cells, ∀ g < p.groups, 0 ≤ f i g) → 0 < P f →
      ∀ i < p.cells, ∀ g < p.groups, 0 < T f i g := fun f hf hPf i hi g hg =>
    lt_of_lt_of_le (mul_pos hm hPf) (hbounds f _ hf (hT f) i hi g hg).1
  -- the generations
  obtain ⟨x, hx0, hxs⟩ : ∃ x : ℕ → ℕ → ℕ → ℝ, (x 0 = fun _ _ => 1) ∧ ∀ n, x (n + 1) = T (x n) :=
    ⟨fun n => Nat.rec (fun _ _ => 1) (fun _ f => T f) n, rfl, fun _ => rfl⟩
  have hxpos : ∀ n, ∀ i < p.cells, ∀ g < p.groups, 0 < x n i g := by
    intro n
    induction n with
    | zero => intro i _ g _; rw [hx0]; exact one_pos
    | succ n ih =>
      rw [hxs]
      exact hTpos _ (fun i hi g hg => (ih i hi g hg).le) (hPp _ ih)
  have hPpos : ∀ n, 0 < P (x n) := fun n => hPp _ (hxpos n)
  have ht0 : 0 < m / M := div_pos hm hM
  have ht1 : m / M ≤ 1 := (div_le_one hM).mpr hmM
  obtain ⟨t, htdef⟩ : ∃ t, t = m / M := ⟨_, rfl⟩
  rw [← htdef] at ht0 ht1 hgc
  obtain ⟨q, hq⟩ : ∃ q, q = 1 - t := ⟨_, rfl⟩
  have hq0 : 0 ≤ q := hq ▸ sub_nonneg.mpr ht1
  have hq1 : q < 1 := hq ▸ sub_lt_self _ ht0
  obtain ⟨r, hr⟩ : ∃ r : ℕ → ℝ, ∀ n, r n = P (x (n + 1)) / P (x n) := ⟨_, fun _ => rfl⟩
  obtain ⟨ab, hab0, hab⟩ : ∃ ab : ℕ → ℝ × ℝ, ab 0 = (m * P (x 0), M * P (x 0)) ∧ ∀ n,
      ab (n + 1) = ((ab n).1 + t * (r n - (ab n).1), (ab n).2 - t * ((ab n).2 - r n)) :=
    ⟨brackets t (m * P (x 0)) (M * P (x 0)) r, rfl, fun _ => rfl⟩
  have hbr : ∀ n, ∀ i < p.cells, ∀ g < p.groups,
      (ab n).1 * x n i g ≤ x (n + 1) i g ∧ x (n + 1) i g ≤ (ab n).2 * x n i g := by
    intro n
    induction n with
    | zero =>
      intro i hi g hg
      have := hbounds (x 0) _ (fun i hi g hg => (hxpos 0 i hi g hg).le) (hT _) i hi g hg
      have h1 : x 0 i g = 1 := by rw [hx0]
      rw [hxs, hab0, h1, mul_one, mul_one]
      exact this
    | succ n ih =>
      intro i hi g hg
      have := (hgc _ _ _ _ (fun i hi g hg => (hxpos n i hi g hg).le) (hPpos n) ih).2.2 i hi g hg
      rw [← hr n] at this
      rw [hab n, hxs (n + 1)]
      rw [← hxs n] at this
      exact this
  have hrab : ∀ n, (ab n).1 ≤ r n ∧ r n ≤ (ab n).2 := fun n => by
    have := hgc _ _ _ _ (fun i hi g hg => (hxpos n i hi g hg).le) (hPpos n) (hbr n)
    rw [hr n]
    exact ⟨this.1, this.2.1⟩
  have hmono : Monotone fun n => (ab n).1 := monotone_nat_of_le_succ fun n => by
    have : (ab (n + 1)).1 = (ab n).1 + t * (r n - (ab n).1) := by rw [hab n]
    have h2 := mul_nonneg ht0.le (sub_nonneg.mpr (hrab n).1)
    linarith
  have hanti : Antitone fun n => (ab n).2 := antitone_nat_of_succ_le fun n => by
    have : (ab (n + 1)).2 = (ab n).2 - t * ((ab n).2 - r n) := by rw [hab n]
    have h2 := mul_nonneg ht0.le (sub_nonneg.mpr (hrab n).2)
    linarith
  obtain ⟨D, hD⟩ : ∃ D, D = (ab 0).2 - (ab 0).1 := ⟨_, rfl⟩
  have hgap : ∀ n, (ab n).2 - (ab n).1 = q ^ n * D := by
    intro n
    induction n with
    | zero => rw [pow_zero, one_mul, hD]
    | succ n ih =>
      have h1 : (ab (n + 1)).1 = (ab n).1 + t * (r n - (ab n).1) := by rw [hab n]
      have h2 : (ab (n + 1)).2 = (ab n).2 - t * ((ab n).2 - r n) := by rw [hab n]
      rw [pow_succ, mul_assoc, mul_comm q D, ← mul_assoc, ← ih, h1, h2, hq]
      ring
  have ha0 : 0 < (ab 0).1 := by rw [hab0]; exact mul_pos hm (hPpos 0)
  have hapos : ∀ n, 0 < (ab n).1 := fun n => lt_of_lt_of_le ha0 (hmono (Nat.zero_le n))
  have hle : ∀ n, (ab n).1 ≤ (ab n).2 := fun n => (hrab n).1.trans (hrab n).2
  have hqlim : Filter.Tendsto (fun n => q ^ n * D) Filter.atTop (nhds 0) := by
    simpa using (tendsto_pow_atTop_nhds_zero_of_lt_one hq0 hq1).mul_const D
  -- the multiplication factor
  have hbdd : BddAbove (Set.range fun n => (ab n).1) :=
    ⟨(ab 0).2, by rintro _ ⟨n, rfl⟩; exact (hle n).trans (hanti (Nat.zero_le n))⟩
  have hklim := tendsto_atTop_ciSup hmono hbdd
  have hkge : ∀ n, (ab n).1 ≤ ⨆ n, (ab n).1 := fun n => le_ciSup hbdd n
  obtain ⟨k, hk⟩ : ∃ k, k = ⨆ n, (ab n).1 := ⟨_, rfl⟩
  rw [← hk] at hklim hkge
  have hkpos : 0 < k := lt_of_lt_of_le ha0 (hkge 0)
  have hblim : Filter.Tendsto (fun n => (ab n).2) Filter.atTop (nhds k) := by
    have := hklim.add hqlim
    rw [add_zero] at this
    refine this.congr fun n => ?_
    rw [← hgap n]; ring
  -- the normalised generations
  obtain ⟨y, hy⟩ : ∃ y : ℕ → ℕ → ℕ → ℝ, ∀ n i g, y n i g = x n i g / P (x n) := ⟨_, fun _ _ _ => rfl⟩
  have hypos : ∀ n, ∀ i < p.cells, ∀ g < p.groups, 0 < y n i g := fun n i hi g hg =>
    hy n i g ▸ div_pos (hxpos n i hi g hg) (hPpos n)
  obtain ⟨B, hB⟩ : ∃ B, B = M / (m * P (x 0)) := ⟨_, rfl⟩
  have hP1' : 0 < P (x 0) := hPpos 0
  have hnextP : ∀ n, m * P (x n) * P (x 0) ≤ P (x (n + 1)) ∧ P (x (n + 1)) ≤ M * P (x n) * P (x 0) := by
    intro n
    have hb := hbounds (x n) _ (fun i hi g hg => (hxpos n i hi g hg).le) (hT _)
    rw [← hxs] at hb
    rw [hP] at hb ⊢
    constructor
    · rw [← totalProduction_smul]
      exact totalProduction_mono hF fun i hi g hg => by rw [hx0, mul_one]; exact (hb i hi g hg).1
    · rw [← totalProduction_smul]
      exact totalProduction_mono hF fun i hi g hg => by rw [hx0, mul_one]; exact (hb i hi g hg).2
  have hyB : ∀ n, ∀ i < p.cells, ∀ g < p.groups, y (n + 1) i g ≤ B := by
    intro n i hi g hg
    have hb := (hbounds (x n) _ (fun i hi g hg => (hxpos n i hi g hg).le) (hT _) i hi g hg).2
    rw [← hxs] at hb
    rw [hB, hy, div_le_div_iff₀ (hPpos _) (mul_pos hm hP1')]
    calc x (n + 1) i g * (m * P (x 0)) ≤ M * P (x n) * (m * P (x 0)) :=
          mul_le_mul_of_nonneg_right hb (mul_pos hm hP1').le
      _ = M * (m * P (x n) * P (x 0)) := by ring
      _ ≤ M * P (x (n + 1)) := mul_le_mul_of_nonneg_left (hnextP n).1 hM.le
  have hyb : ∀ n, ∀ i < p.cells, ∀ g < p.groups, m / (M * P (x 0)) ≤ y (n + 1) i g := by
    intro n i hi g hg
    have hb := (hbounds (x n) _ (fun i hi g hg => (hxpos n i hi g hg).le) (hT _) i hi g hg).1
    rw [← hxs] at hb
    rw [hy, div_le_div_iff₀ (mul_pos hM hP1') (hPpos _)]
    calc m * P (x (n + 1)) ≤ m * (M * P (x n) * P (x 0)) := mul_le_mul_of_nonneg_left (hnextP n).2 hm.le
      _ = m * P (x n) * (M * P (x 0)) := by ring
      _ ≤ x (n + 1) i g * (M * P (x 0)) := mul_le_mul_of_nonneg_right hb (mul_pos hM hP1').le
  have hstep : ∀ n, ∀ i < p.cells, ∀ g < p.groups,
      |y (n + 1) i g - y n i g| ≤ (q ^ n * D) / (ab 0).1 * y n i g := by
    intro n i hi g hg
    have hb := hbr n i hi g hg
    have hrn := hrab n
    have hPn : P (x (n + 1)) = r n * P (x n) := by rw [hr n]; exact (div_mul_cancel₀ _ (hPpos n).ne').symm
    have hrpos : 0 < r n := lt_of_lt_of_le (hapos n) hrn.1
    have e : y (n + 1) i g - y n i g = (x (n + 1) i g / x n i g - r n) / r n * y n i g := by
      have := (hPpos n).ne'
      have h2 := (hxpos n i hi g hg).ne'
      rw [hy, hy, hPn]
      field_simp
    rw [e, abs_mul, abs_of_pos (hypos n i hi g hg)]
    refine mul_le_mul_of_nonneg_right ?_ (hypos n i hi g hg).le
    rw [abs_div, abs_of_pos hrpos]
    have h1 : |x (n + 1) i g / x n i g - r n| ≤ q ^ n * D := by
      rw [← hgap n]
      have e1 := (le_div_iff₀ (hxpos n i hi g hg)).mpr hb.1
      have e2 := (div_le_iff₀ (hxpos n i hi g hg)).mpr hb.2
      exact abs_le.mpr ⟨by linarith [hrn.2], by linarith [hrn.1]⟩
    exact div_le_div₀ ((abs_nonneg _).trans h1) h1 ha0 ((hmono (Nat.zero_le n)).trans hrn.1)
  have hlim : ∀ i g, ∃ l, i < p.cells → g < p.groups →
      Filter.Tendsto (fun n => y (n + 1) i g) Filter.atTop (nhds l) := by
    intro i g
    by_cases hig : i < p.cells ∧ g < p.groups
    · have hcau : CauchySeq fun n => y (n + 1) i g := by
        refine cauchySeq_of_le_geometric q (q * D / (ab 0).1 * B) hq1 fun n => ?_
        rw [dist_comm, Real.dist_eq]
        refine (hstep (n + 1) i hig.1 g hig.2).trans ?_
        have hD0 : 0 ≤ q ^ (n + 1) * D / (ab 0).1 := by
          rw [← hgap]; exact div_nonneg (sub_nonneg.mpr (hle _)) ha0.le
        refine (mul_le_mul_of_nonneg_left (hyB n i hig.1 g hig.2) hD0).trans (le_of_eq ?_)
        rw [pow_succ]; ring
      obtain ⟨l, hl⟩ := cauchySeq_tendsto_of_complete hcau
      exact ⟨l, fun _ _ => hl⟩
    · exact ⟨0, fun h1 h2 => absurd ⟨h1, h2⟩ hig⟩
  choose l hl using hlim
  have hlpos : ∀ i < p.cells, ∀ g < p.groups, 0 < l i g := fun i hi g hg =>
    lt_of_lt_of_le (div_pos hm (mul_pos hM hP1')) (ge_of_tendsto' (hl i g hi hg) fun n => hyb n i hi g hg)
  -- the limit reproduces itself
  have hTl : ∀ i < p.cells, ∀ g < p.groups, T l i g = k * l i g := by
    obtain ⟨d, hd⟩ : ∃ d : ℕ → ℝ, d = fun n => ∑ i ∈ range p.cells, ∑ g ∈ range p.groups, |y (n + 1) i g - l i g| :=
      ⟨_, rfl⟩
    have hdlim : Filter.Tendsto d Filter.atTop (nhds 0) := by
      have : Filter.Tendsto d Filter.atTop
          (nhds (∑ i ∈ range p.cells, ∑ g ∈ range p.groups, |l i g - l i g|)) :=
        hd ▸ tendsto_finsetSum _ fun i hi => tendsto_finsetSum _ fun g hg =>
          ((hl i g (mem_range.mp hi) (mem_range.mp hg)).sub_const _).abs
      simpa using this
    have hdle : ∀ n, ∀ i < p.cells, ∀ g < p.groups, |y (n + 1) i g - l i g| ≤ d n := fun n i hi g hg => by
      rw [hd]
      exact (single_le_sum (f := fun g => |y (n + 1) i g - l i g|) (fun _ _ => abs_nonneg _) (mem_range.mpr hg)).trans
        (single_le_sum (f := fun i => ∑ g ∈ range p.groups, |y (n + 1) i g - l i g|)
          (fun _ _ => sum_nonneg fun _ _ => abs_nonneg _) (mem_range.mpr hi))
    -- the next generation of a normalised one
    have hTy : ∀ n, Answers p sigma xs (emission p F (y n)) fun i g => x (n + 1) i g / P (x n) := by
      intro n
      have h1 := answers_linear (1 / P (x n)) 0 (hT (x n)) (hT (x n))
      refine answers_congr h1 (fun i _ g _ => ?_) fun i _ g _ => by rw [hxs]; ring
      rw [← emission_linear]
      unfold emission
      exact sum_congr rfl fun _ _ => by simp only [hy]; ring
    have hcl : ∀ (e : ℝ) n, Answers p sigma xs (fun i g => 1 * emission p F (y n) i g + e * emission p F (x 0) i g)
        fun i g => 1 * (x (n + 1) i g / P (x n)) + e * x 1 i g := fun e n =>
      answers_linear 1 e (hTy n) (hxs 0 ▸ hT (x 0))
    intro i hi g hg
    have hmid : Filter.Tendsto (fun n => x (n + 2) i g / P (x (n + 1))) Filter.atTop (nhds (k * l i g)) := by
      refine tendsto_of_tendsto_of_tendsto_of_le_of_le
        (((Filter.tendsto_add_atTop_iff_nat 1).mpr hklim).mul (hl i g hi hg))
        (((Filter.tendsto_add_atTop_iff_nat 1).mpr hblim).mul (hl i g hi hg)) (fun n => ?_) fun n => ?_
      · have := (hbr (n + 1) i hi g hg).1
        show (ab (n + 1)).1 * y (n + 1) i g ≤ _
        rw [hy]
        rw [← mul_div_assoc]
        exact div_le_div_of_nonneg_right this (hPpos _).le
      · have := (hbr (n + 1) i hi g hg).2
        show _ ≤ (ab (n + 1)).2 * y (n + 1) i g
        rw [hy]
        rw [← mul_div_assoc]
        exact div_le_div_of_nonneg_right this (hPpos _).le
    have hx1 : Filter.Tendsto (fun n => d n * x 1 i g) Filter.atTop (nhds 0) := by
      simpa using hdlim.mul_const (x 1 i g)
    refine le_antisymm ?_ ?_
    · refine ge_of_tendsto' (by simpa using hmid.add hx1) fun n => ?_
      have := answers_mono hc1 hcon (hT l) (hcl (d n) (n + 1)) (fun i hi g hg => ?_) i hi g hg
      · linarith
      · rw [← emission_linear]
        refine sum_le_sum fun g' hg' => mul_le_mul_of_nonneg_left ?_ (hF i hi g hg g' (mem_range.mp hg'))
        have := (abs_le.mp (hdle n i hi g' (mem_range.mp hg'))).1
        rw [hx0]; linarith
    · refine le_of_tendsto' (by simpa using hmid.sub hx1) fun n => ?_
      have := answers_mono hc1 hcon (hcl (-d n) (n + 1)) (hT l) (fun i hi g hg => ?_) i hi g hg
      · linarith
      · rw [← emission_linear]
        refine sum_le_sum fun g' hg' => mul_le_mul_of_nonneg_left ?_ (hF i hi g hg g' (mem_range.mp hg'))
        have := (abs_le.mp (hdle n i hi g' (mem_range.mp hg'))).2
        rw [hx0]; linarith
  -- back to an eigenpair
  obtain ⟨e, he⟩ := hT l
  refine ⟨T l, k, e, hkpos, fun i hi g hg => ?_, he.scalar, fun g hg n hn i hi => ?_, fun g hg n hn => ?_⟩
  · rw [hTl i hi g hg]; exact mul_pos hkpos (hlpos i hi g hg)
  · have := he.balance g hg n hn i hi
    simp only [bidx_full _ _ hn, bidx_full _ _ hg] at this
    have e2 : (∑ g' ∈ range p.groups, F (p.mm i) g g' * T l i g') / k = emission p F l i g := by
      rw [div_eq_iff hkpos.ne']
      unfold emission
      rw [sum_mul]
      exact sum_congr rfl fun g' hg' => by rw [hTl i hi g' (mem_range.mp hg')]; ring
    rw [e2]
    exact this
  · have := he.inflow g hg n hn
    simpa [zeroBoundary] using this

end Real

/-! ### Examples -/

/-- Three cells, two groups, two directions, reflected on the left: one uranium cell between two others. -/
def exPile (K : Type) [Field K] : Problem K where
  cells := 3
  groups := 2
  angles := 2
  mm := fun i => if i = 1 then 1 else 0
  dx := fun _ => 1
  angleX := fun n => if n = 0 then -1 else 1
  angleW := fun _ => 1 / 2
  bcL := true
  bcR := false
  geometry := 1
  pi := 3
  convIn := fun _ _ => false
  convOut := fun _ _ => false

/-- Its down-scatter cross sections. -/
def exPileScatter (K : Type) [Field K] : ℕ → ℕ → ℕ → K := fun _ g g' => if g = 1 ∧ g' = 0 then 1 / 2 else 0

/-- Its fission cross sections: only the middle cell multiplies, neutrons are born in both groups. -/
def exPileFission (K : Type) [Field K] : ℕ → ℕ → ℕ → K := fun m g _ => if m = 1 then (if g = 0 then 2 else 1) else 0

section

variable {K : Type} [Field K] [LinearOrder K] [IsStrictOrderedRing K]

theorem exPileContractive : Contractive (exPile K) (fun _ _ => 1) (exPileScatter K) (1 / 2) where
  ok := fun g _ => ⟨rfl, fun n _ => by simp only [exPile]; split_ifs <;> norm_num, fun i _ => by simp [exPile]⟩
  fine := fun g _ n _ i _ => by simp only [exPile]; split_ifs <;> norm_num
  weights := fun n _ => by norm_num [exPile]
  norm := by norm_num [exPile]
  nonneg := fun _ _ _ _ _ _ => by simp only [exPileScatter]; split_ifs <;> norm_num
  rows := fun _ _ g hg => by
    have hg : g < 2 := hg
    have h : g = 0 ∨ g = 1 := by omega
    rcases h with rfl | rfl <;> norm_num [exPile, exPileScatter, sum_range_succ]

theorem exPileNonneg : EmissionNonneg (exPile K) (exPileFission K) := fun _ _ _ _ _ _ => by
  simp only [exPileFission]; split_ifs <;> norm_num

theorem exPileSpreads : Spreads (exPile K) fun _ _ => 1 where
  right := ⟨1, by norm_num [exPile], by norm_num [exPile], by norm_num [exPile], fun i _ g _ => by norm_num [exPile]⟩
  left := ⟨0, by norm_num [exPile], by norm_num [exPile], by norm_num [exPile], fun i _ g _ => by norm_num [exPile]⟩

theorem exPileSpectrum : SpectrumPositive (exPile K) (exPileFission K) (1 / 3) := fun i _ g _ g' _ => by
  simp only [exPile, exPileFission, sum_range_succ, sum_range_zero]
  split_ifs <;> norm_num at *

theorem exPileProduces : 0 < totalProduction (exPile K) (exPileFission K) fun _ _ => 1 := by
  norm_num [totalProduction, exPile, exPileFission, sum_range_succ]

end

-- C170: the pile has a fundamental mode, isolated from the other eigenvalues
example := C170_fundamental_mode (exPile ℝ) (fun _ _ => 1) (exPileScatter ℝ) (exPileFission ℝ) (1 / 2) (1 / 3)
  (by norm_num) (by norm_num) exPileContractive exPileNonneg (by norm_num [exPile]) (by norm_num [exPile])
  exPileSpreads (by norm_num) exPileSpectrum exPileProduces

example := C170_dominance_gap (exPile ℚ) (fun _ _ => 1) (exPileScatter ℚ) (exPileFission ℚ) (1 / 2) (1 / 3)
  (by norm_num) (by norm_num) exPileContractive exPileNonneg (by norm_num [exPile]) (by norm_num [exPile])
  exPileSpreads (by norm_num) exPileSpectrum exPileProduces

-- C171: on the pile the power iteration of the code converges to that mode from every start
example : ∃ (phi : ℕ → ℕ → ℝ) (k : ℝ), 0 < k ∧ (∀ i < 3, ∀ g < 2, 0 < phi i g) ∧ ∃ q E : ℝ, 0 ≤ q ∧ q < 1 ∧ 0 ≤ E ∧
    ∀ conv random, (∀ i < 3, ∀ g < 2, 0 < random i g) →
      ∃ (x : ℕ → KState ℝ) (n : ℕ), powerIteration (exPile ℝ) (frobenius 3 2) conv (fun _ _ => 1) (.iso (exPileScatter ℝ))
        (.matrix (exPileFission ℝ)) random = .ok (x n, n) ∧
      ∀ j, 1 ≤ j → j < n → k / (1 + q ^ (j - 1) * E) ≤ (x (j + 1)).keff ∧
        (x (j + 1)).keff ≤ (1 + q ^ (j - 1) * E) * k := by
  obtain ⟨phi, k, psi, hk, hpos, hpair⟩ := C170_fundamental_mode (exPile ℝ) (fun _ _ => 1) (exPileScatter ℝ)
    (exPileFission ℝ) (1 / 2) (1 / 3)
    (by norm_num) (by norm_num) exPileContractive exPileNonneg (by norm_num [exPile]) (by norm_num [exPile])
    exPileSpreads (by norm_num) exPileSpectrum exPileProduces
  obtain ⟨q, E, hq, hq1, hE, h⟩ := C171_converges (exPile ℝ) (fun _ _ => 1) (exPileScatter ℝ)
    (.matrix (exPileFission ℝ)) (1 / 2) (1 / 3) (by norm_num) (by norm_num) exPileContractive
    (fun _ g g' h => by simp only [exPileScatter]; rw [if_neg (by omega)])
    (fun _ _ _ _ _ => by simp only [exPileFission]; split_ifs <;> norm_num) exPileNonneg (by norm_num [exPile])
    (by norm_num [exPile]) exPileSpreads (by norm_num) exPileSpectrum exPileProduces phi k psi hk hpair hpos
  refine ⟨phi, k, hk, hpos, q, E, hq, hq1, hE, fun conv random hr => ?_⟩
  obtain ⟨x, n, _, h2, h3⟩ := h (frobenius 3 2) conv random (fun f _ hne =>
      lt_of_le_of_ne (Real.sqrt_nonneg _) (Ne.symm (frobenius_normalise 3 2 f hne).1))
    (fun i hi g hg => (hr i hi g hg).le)
    (production_pos exPileNonneg (by norm_num [exPile]) (by norm_num [exPile]) exPileProduces hr)
  exact ⟨x, n, h2, fun j hj hlt => (h3 j hj hlt.le).2 hlt⟩

-- C172: a run of the example of C120 that stops by the tolerance 1/100 returns a keff within 2.1% of 1
example : ∃ s n, powerIteration exCrit (fun f => |f 0 0|) (fluxConverged2 1 2 (1 / 100)) (fun _ _ => 1)
      (.iso exCritDown) (.matrix exCritFission) (fun i g => i + g + 1) = .ok (s, n) ∧
    (n < 100 → 99 / 101 ≤ s.keff ∧ s.keff ≤ 101 / 99) := by
  obtain ⟨s, n, h1, h2⟩ := C172_tolerance_bounds_keff exCrit (fun f => |f 0 0|) (1 / 100) (by norm_num) (fun _ _ => 1)
    exCritDown (.matrix exCritFission) (1 / 2) (by norm_num) (by norm_num) exCritDownContractive
    (fun _ g _ _ _ => by simp only [exCritFission]; split_ifs <;> norm_num) exCritFission_nonneg
    (by norm_num [exCrit]) (by norm_num [exCrit]) 0 le_rfl one_pos
    (downscatter_accurate exCrit _ _ _ (by norm_num) exCritDownContractive
      (fun _ g g' h => by simp only [exCritDown]; rw [if_neg (by omega)])
      (fun _ g _ _ _ => by simp only [exCritFission]; split_ifs <;> norm_num))
    (fun _ _ => 1) 1 _ (by norm_num) exCritDownPair (fun _ _ _ _ => by norm_num)
    (by norm_num [totalProduction, exCrit, fissionMatrix, exCritFission, sum_range_succ])
    (fun f hf => abs_pos.mpr (hf 0 (by norm_num [exCrit]) 0 (by norm_num [exCrit])).ne') (fun i g => i + g + 1)
    (fun i _ g _ => by positivity) (1 / 100) (by norm_num [exCrit]) (by norm_num)
  refine ⟨s, n, h1, fun h => ?_⟩
  have := h2 h
  norm_num at this
  exact this

-- and such runs exist: started from the mode itself the test is met after the first pass
example : ∃ s, powerIteration exCrit (fun f => |f 0 0|) (fluxConverged2 1 2 (1 / 100)) (fun _ _ => 1)
      (.iso exCritDown) (.matrix exCritFission) (fun _ _ => 1) = .ok (s, 1) := by
  obtain ⟨x, n, hr, h2, h3⟩ := C120_bracket exCrit (fun f => |f 0 0|) (fluxConverged2 1 2 (1 / 100)) (fun _ _ => 1)
    exCritDown (.matrix exCritFission) (fun _ _ => 1) (1 / 2) (by norm_num) exCritDownContractive
    (fun _ g g' h => by simp only [exCritDown]; rw [if_neg (by omega)])
    (fun _ g _ _ _ => by simp only [exCritFission]; split_ifs <;> norm_num) exCritFission_nonneg (fun _ _ => 1) 1 _
    (by norm_num) exCritDownPair (fun _ _ _ _ => by norm_num)
    (by norm_num [totalProduction, exCrit, fissionMatrix, exCritFission, sum_range_succ])
    (fun f hf => abs_pos.mpr (hf 0 (by norm_num [exCrit]) 0 (by norm_num [exCrit])).ne') 1 1 (by norm_num)
    le_rfl (fun i hi g hg => by norm_num)
  have hn := hr.pos
  obtain ⟨⟨s, hs, hb⟩, _⟩ := h3 1 hn
  have hb : ∀ g < 2, (x 1).flux 0 g = s := fun g hg => by
    have := hb 0 (by norm_num [exCrit]) g hg
    norm_num at this
    exact le_antisymm this.2 this.1
  have h0 : ∀ g, (x 0).flux 0 g = 1 := fun g => by rw [hr.start]; norm_num [start]
  obtain ⟨o, k1, k2⟩ := powerStep_ok exCrit (fun f => |f 0 0|) (fun _ _ => 1) (.iso exCritDown) (.matrix exCritFission)
    exCritDownContractive.ok (x 0)
  rw [hr.steps 0 (by omega)] at k2
  have k2 := Except.ok.inj k2
  have hs1 : s = 1 := by
    have e : (x 1).flux 0 0 = o 0 0 / |o 0 0| := by
      rw [show x 1 = _ from k2]; rfl
    rw [hb 0 (by norm_num)] at e
    have : |s| = 1 ∨ s = 0 := by
      rcases eq_or_ne (o 0 0) 0 with h | h
      · right; rw [e, h]; simp
      · left; rw [e, abs_div, abs_abs]; exact div_self (abs_ne_zero.mpr h)
    rcases this with h | h
    · rwa [abs_of_pos hs] at h
    · exact absurd h hs.ne'
  by_cases hn1 : n = 1
  · exact ⟨_, hn1 ▸ h2⟩
  · exfalso
    have := hr.notBefore 1 le_rfl (by omega)
    have hT : fluxConverged2 1 2 (1 / 100) (x 1).flux (x 0).flux = true := by
      have e1 : ∀ g < 2, (x 1).flux 0 g = 1 := fun g hg => by rw [hb g hg, hs1]
      simp [fluxConverged2, accum_eq_sum, sum_range_succ, e1, h0]
      intro g hg
      rw [e1 g (by omega)]
      exact one_ne_zero
    rw [hT] at this
    exact absurd this (by simp)

end Discrete1.Props
