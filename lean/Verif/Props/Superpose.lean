import Verif.Props.SpaceOrder

/-! # C129: superposition at the level of the drivers -/

set_option linter.unusedSectionVars false
set_option linter.unusedSimpArgs false

namespace Discrete1.Props

open Finset Discrete1.Spec Discrete1.Slab Discrete1.Tools Discrete1.MultiGroup Discrete1.Drivers

variable {K : Type} [Field K] [LinearOrder K] [IsStrictOrderedRing K]

/-- The pointwise combination `a x + b y` of two source arrays of any (broadcastable) shapes. -/
def combined (p : Problem K) (a b : K) (x y : Arr3 K) : Arr3 K :=
  ⟨p.angles, p.groups, fun i n g => a * sourceAt x i n g + b * sourceAt y i n g⟩

theorem sourceAt_combined (p : Problem K) (a b : K) (x y : Arr3 K) {i n g : ℕ} (hn : n < p.angles)
    (hg : g < p.groups) : sourceAt (combined p a b x y) i n g = a * sourceAt x i n g + b * sourceAt y i n g :=
  sourceAt_full _ hn hg

/-- Exact solutions superpose. -/
theorem solves_combined {p : Problem K} {sigma : ℕ → ℕ → K} {xs : ℕ → ℕ → ℕ → K} {q1 q2 b1 b2 : Arr3 K}
    {phi1 phi2 : ℕ → ℕ → K} {e1 e2 : ℕ → ℕ → ℕ → K} (a b : K)
    (h1 : SolvesMultigroup p sigma xs q1 b1 phi1 e1) (h2 : SolvesMultigroup p sigma xs q2 b2 phi2 e2) :
    SolvesMultigroup p sigma xs (combined p a b q1 q2) (combined p a b b1 b2)
      (fun i g => a * phi1 i g + b * phi2 i g) (fun g n i => a * e1 g n i + b * e2 g n i) := by
  refine ⟨fun g hg i hi => ?_, fun g hg n hn i hi => ?_, fun g hg n hn => ?_⟩
  · rw [h1.scalar g hg i hi, h2.scalar g hg i hi]
    unfold scalarCenter
    rw [mul_sum, mul_sum, ← sum_add_distrib]
    exact sum_congr rfl fun n _ => by ring
  · have k1 : _ = _ + sourceAt q1 i n g := h1.balance g hg n hn i hi
    have k2 : _ = _ + sourceAt q2 i n g := h2.balance g hg n hn i hi
    have k3 := sourceAt_combined p a b q1 q2 (i := i) hn hg
    show _ = _ + sourceAt (combined p a b q1 q2) i n g
    rw [k3]
    have hs : ∑ og ∈ range p.groups, xs (p.mm i) g og * (a * phi1 i og + b * phi2 i og)
        = a * ∑ og ∈ range p.groups, xs (p.mm i) g og * phi1 i og
          + b * ∑ og ∈ range p.groups, xs (p.mm i) g og * phi2 i og := by
      rw [mul_sum, mul_sum, ← sum_add_distrib]
      exact sum_congr rfl fun _ _ => by ring
    beta_reduce at k1 k2 ⊢
    rw [hs]
    linear_combination a * k1 + b * k2
  · have k1 := h1.inflow g hg n hn
    have k2 := h2.inflow g hg n hn
    have c1 : ∀ s, (combined p a b b1 b2).val s (bidx (combined p a b b1 b2).angles n)
        (bidx (combined p a b b1 b2).groups g)
        = a * b1.val s (bidx b1.angles n) (bidx b1.groups g)
          + b * b2.val s (bidx b2.angles n) (bidx b2.groups g) := fun s =>
      sourceAt_combined p a b b1 b2 (i := s) hn hg
    have e1' : inflow p.cells (p.angleX n) (fun i => a * e1 g n i + b * e2 g n i)
        = a * inflow p.cells (p.angleX n) (e1 g n) + b * inflow p.cells (p.angleX n) (e2 g n) := by
      unfold inflow; split <;> rfl
    have e2' : outflow p.cells (p.angleX (p.angles - 1 - n))
          (fun i => a * e1 g (p.angles - 1 - n) i + b * e2 g (p.angles - 1 - n) i)
        = a * outflow p.cells (p.angleX (p.angles - 1 - n)) (e1 g (p.angles - 1 - n))
          + b * outflow p.cells (p.angleX (p.angles - 1 - n)) (e2 g (p.angles - 1 - n)) := by
      unfold outflow; split <;> rfl
    beta_reduce
    rw [c1, c1, e1', e2', k1, k2]
    split <;> split <;> ring

/-- C129, down-scatter problems: `source_iteration` is linear in the external source and the boundary data,
whatever the three guesses. -/
theorem C129_downscatter (p : Problem K) (xsTotal : ℕ → ℕ → K) (xs : ℕ → ℕ → ℕ → K) (q1 q2 b1 b2 : Arr3 K)
    (a b : K) (hok : ∀ g < p.groups, SlabOk p xsTotal g) (hdown : ∀ m g g', g ≤ g' → xs m g g' = 0)
    (guess1 guess2 guess : ℕ → ℕ → K) :
    ∃ f1 f2 f, sourceIteration p xsTotal (.iso xs) q1 b1 guess1 = .ok f1 ∧
      sourceIteration p xsTotal (.iso xs) q2 b2 guess2 = .ok f2 ∧
      sourceIteration p xsTotal (.iso xs) (combined p a b q1 q2) (combined p a b b1 b2) guess = .ok f ∧
      ∀ i < p.cells, ∀ g < p.groups, f i g = a * f1 i g + b * f2 i g := by
  obtain ⟨f1, e1, r1, s1⟩ := C22_downscatter_exact p xsTotal xs q1 b1 guess1 hok hdown
  obtain ⟨f2, e2, r2, s2⟩ := C22_downscatter_exact p xsTotal xs q2 b2 guess2 hok hdown
  obtain ⟨f, e, r, s⟩ := C22_downscatter_exact p xsTotal xs (combined p a b q1 q2) (combined p a b b1 b2) guess
    hok hdown
  exact ⟨f1, f2, f, r1, r2, r, fun i hi g hg =>
    downscatter_unique p xsTotal xs _ _ hok hdown s (solves_combined a b s1 s2) g hg i hi⟩

/-- C129 in general: on contractive problems the three returned fluxes superpose up to their iteration
errors, each of which is at most `c ^ sweeps` times the error of its guess. -/
theorem C129_superposition (p : Problem K) (xsTotal : ℕ → ℕ → K) (xs : ℕ → ℕ → ℕ → K) (q1 q2 b1 b2 : Arr3 K)
    (a b c : K) (hc : 0 ≤ c) (hc1 : c < 1) (hcon : Contractive p xsTotal xs c) :
    ∃ (phi1 phi2 : ℕ → ℕ → K) (e1 e2 : ℕ → ℕ → ℕ → K), SolvesMultigroup p xsTotal xs q1 b1 phi1 e1 ∧
      SolvesMultigroup p xsTotal xs q2 b2 phi2 e2 ∧ ∀ (guess1 guess2 guess : ℕ → ℕ → K) (M : K), 0 ≤ M →
      (∀ i < p.cells, ∀ g < p.groups, |guess1 i g - phi1 i g| ≤ M ∧ |guess2 i g - phi2 i g| ≤ M ∧
        |guess i g - (a * phi1 i g + b * phi2 i g)| ≤ M) →
      ∃ (f1 f2 f : ℕ → ℕ → K) (s1 s2 s : ℕ), sourceIteration p xsTotal (.iso xs) q1 b1 guess1 = .ok f1 ∧
        sourceIteration p xsTotal (.iso xs) q2 b2 guess2 = .ok f2 ∧
        sourceIteration p xsTotal (.iso xs) (combined p a b q1 q2) (combined p a b b1 b2) guess = .ok f ∧
        (1 ≤ s1 ∧ s1 ≤ 100) ∧ (1 ≤ s2 ∧ s2 ≤ 100) ∧ (1 ≤ s ∧ s ≤ 100) ∧
        ∀ i < p.cells, ∀ g < p.groups, |f i g - (a * f1 i g + b * f2 i g)|
          ≤ (c ^ s + |a| * c ^ s1 + |b| * c ^ s2) * M := by
  obtain ⟨phi1, e1, h1, _, r1⟩ := C74_source_iteration_finds_solution p xsTotal xs q1 b1 c hc hc1 hcon
  obtain ⟨phi2, e2, h2, _, r2⟩ := C74_source_iteration_finds_solution p xsTotal xs q2 b2 c hc hc1 hcon
  obtain ⟨phi, e, h, hu, r⟩ := C74_source_iteration_finds_solution p xsTotal xs (combined p a b q1 q2)
    (combined p a b b1 b2) c hc hc1 hcon
  have hphi := hu _ _ (solves_combined a b h1 h2)
  refine ⟨phi1, phi2, e1, e2, h1, h2, fun guess1 guess2 guess M hM hg => ?_⟩
  obtain ⟨f1, s1, k1, k1', k2, k3, _⟩ := r1 guess1 M hM fun i hi g hgg => (hg i hi g hgg).1
  obtain ⟨f2, s2, l1, l1', l2, l3, _⟩ := r2 guess2 M hM fun i hi g hgg => (hg i hi g hgg).2.1
  obtain ⟨f, s, m1, m1', m2, m3, _⟩ := r guess M hM fun i hi g hgg => by
    rw [← hphi i hi g hgg]; exact (hg i hi g hgg).2.2
  refine ⟨f1, f2, f, s1, s2, s, k2, l2, m2, ⟨k1, k1'⟩, ⟨l1, l1'⟩, ⟨m1, m1'⟩, fun i hi g hgg => ?_⟩
  have x1 := k3 i hi g hgg
  have x2 := l3 i hi g hgg
  have x3 := m3 i hi g hgg
  rw [← hphi i hi g hgg] at x3
  have e : f i g - (a * f1 i g + b * f2 i g) = (f i g - (a * phi1 i g + b * phi2 i g))
      + (-a * (f1 i g - phi1 i g)) + (-b * (f2 i g - phi2 i g)) := by ring
  rw [e]
  refine (abs_add_three _ _ _).trans ?_
  rw [abs_mul, abs_mul, abs_neg, abs_neg]
  have y1 := mul_le_mul_of_nonneg_left x1 (abs_nonneg a)
  have y2 := mul_le_mul_of_nonneg_left x2 (abs_nonneg b)
  calc _ ≤ c ^ s * M + |a| * (c ^ s1 * M) + |b| * (c ^ s2 * M) := by linarith
    _ = _ := by ring

example := C129_downscatter (exFlat ℚ) (fun _ _ => 1) (exFlatXs ℚ) ⟨1, 1, fun _ _ _ => 1⟩ ⟨2, 1, fun i n _ => i + n⟩
  ⟨1, 1, fun _ _ _ => 2⟩ ⟨1, 2, fun s _ g => s + g⟩ 3 (-1) (fun g _ => exFlat_ok g)
  (fun m g g' h => by simp only [exFlatXs]; rw [if_neg (by omega)]) (fun _ _ => 0) (fun _ _ => 5) (fun _ _ => 1)

example := C129_superposition (exFlat ℚ) (fun _ _ => 1) (exFlatXs ℚ) ⟨1, 1, fun _ _ _ => 1⟩
  ⟨2, 1, fun i n _ => i + n⟩ ⟨1, 1, fun _ _ _ => 2⟩ ⟨1, 2, fun s _ g => s + g⟩ 3 (-1) (1 / 2) (by norm_num)
  (by norm_num) exFlat_contractive_steady

end Discrete1.Props
