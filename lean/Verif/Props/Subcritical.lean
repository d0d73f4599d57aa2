import Verif.Props.Perron
import Verif.Props.KeffMono

/-!
# C185: fixed-source problems with multiplication

The problem `source_iteration` solves has fission folded into the scattering matrix.  Its iteration converges exactly
when the system is subcritical; no restriction on the ratio of scattering plus fission to total cross section is made.
-/

set_option linter.unusedSectionVars false
set_option linter.unusedSimpArgs false

namespace Discrete1.Props

open Finset Discrete1.Spec Discrete1.Slab Discrete1.Tools Discrete1.MultiGroup Discrete1.Drivers Discrete1.Critical

section General

variable {K : Type} [Field K] [LinearOrder K] [IsStrictOrderedRing K]
variable {p : Problem K} {sigma : ℕ → ℕ → K} {xs F : ℕ → ℕ → ℕ → K} {c : K}

/-- One flight of the secondaries of the positive flux `u` returns at most `c u` (`e`: their angular fluxes). -/
structure Damps (p : Problem K) (sigma : ℕ → ℕ → K) (xs : ℕ → ℕ → ℕ → K) (c : K) (u : ℕ → ℕ → K)
    (e : ℕ → ℕ → ℕ → K) : Prop where
  pos : ∀ i < p.cells, ∀ g < p.groups, 0 < u i g
  streams : Streams p sigma (fun i _ g => ∑ g' ∈ range p.groups, xs (p.mm i) g g' * u i g') zeroBoundary e
  damped : ∀ i < p.cells, ∀ g < p.groups, scalarCenter p.angles p.angleW (e g) i ≤ c * u i g

/-- Two angular fluxes of one group with the same inflow whose sources differ by at most `M` times the secondaries
of `u` have scalar fluxes that differ by at most `c M u`. -/
theorem Damps.sweep {u : ℕ → ℕ → K} {e : ℕ → ℕ → ℕ → K} (hd : Damps p sigma xs c u e) (ht : Tame p sigma xs)
    {g : ℕ} (hg : g < p.groups) {q q' psi psi' : ℕ → ℕ → K} {bL bR : ℕ → K} {M : K} (hM : 0 ≤ M)
    (h : AllBalanced p.cells p.angles p.angleX p.dx (fun i => sigma (p.mm i) g) q psi)
    (h' : AllBalanced p.cells p.angles p.angleX p.dx (fun i => sigma (p.mm i) g) q' psi')
    (hin : SweptInflow p.cells p.angles p.angleX p.bcL p.bcR bL bR psi)
    (hin' : SweptInflow p.cells p.angles p.angleX p.bcL p.bcR bL bR psi')
    (hq : ∀ n < p.angles, ∀ i < p.cells, |q n i - q' n i|
      ≤ M * ∑ g' ∈ range p.groups, xs (p.mm i) g g' * u i g') :
    ∀ i < p.cells, |scalarCenter p.angles p.angleW psi i - scalarCenter p.angles p.angleW psi' i| ≤ c * M * u i g := by
  intro i hi
  have he := hd.streams g hg
  have cmp : ∀ (a : K) , (∀ n < p.angles, ∀ i < p.cells, a * (q n i - q' n i)
      ≤ M * ∑ g' ∈ range p.groups, xs (p.mm i) g g' * u i g') →
      a * (scalarCenter p.angles p.angleW psi i - scalarCenter p.angles p.angleW psi' i)
        ≤ M * scalarCenter p.angles p.angleW (e g) i := by
    intro a ha
    have key := swept_mono (psi := fun n i => a * (psi n i - psi' n i)) (q := fun n i => a * (q n i - q' n i))
      (psi' := fun n i => M * e g n i) (q' := fun n i => M * ∑ g' ∈ range p.groups, xs (p.mm i) g g' * u i g')
      (bL := fun _ => 0) (bR := fun _ => 0) (bL' := fun _ => 0) (bR' := fun _ => 0)
      (bcL := p.bcL) (bcR := p.bcR) (ht.ok g hg).nonzero (ht.ok g hg).phys (ht.fine g hg)
      (fun n hn i hi => by linear_combination a * h n hn i hi - a * h' n hn i hi)
      (fun n hn i hi => by linear_combination M * he.1 n hn i hi)
      (fun n hn => by
        have x := hin n hn
        have y := hin' n hn
        simp only [inflow, outflow] at x y ⊢
        split_ifs at x y ⊢ <;> linear_combination a * x - a * y)
      (fun n hn => by
        have x := he.2 n hn
        simp only [inflow, outflow, zeroBoundary] at x ⊢
        split_ifs at x ⊢ <;> linear_combination M * x)
      ha (fun _ _ _ => le_refl _) (fun _ _ _ => le_refl _)
    have := scalarCenter_mono ht.weights key hi
    unfold scalarCenter at this ⊢
    rw [← sum_sub_distrib, mul_sum, mul_sum]
    refine le_trans (le_of_eq (sum_congr rfl fun n _ => by ring)) (this.trans (le_of_eq (sum_congr rfl fun n _ => by ring)))
  have hM' : M * scalarCenter p.angles p.angleW (e g) i ≤ c * M * u i g := by
    have := mul_le_mul_of_nonneg_left (hd.damped i hi g hg) hM
    linarith
  refine (abs_le.mpr ⟨?_, ?_⟩)
  · have := cmp (-1) fun n hn i hi => by rw [neg_one_mul]; exact (neg_le_abs _).trans (hq n hn i hi)
    linarith
  · have := cmp 1 fun n hn i hi => by rw [one_mul]; exact (le_abs_self _).trans (hq n hn i hi)
    linarith

/-- The secondaries of an error of at most `M u`. -/
theorem secondaries_le (hx : ∀ i < p.cells, ∀ g < p.groups, ∀ g' < p.groups, 0 ≤ xs (p.mm i) g g') {u v : ℕ → ℕ → K}
    {M : K} {i g : ℕ} (hi : i < p.cells) (hg : g < p.groups) (hv : ∀ g' < p.groups, |v i g'| ≤ M * u i g') :
    |∑ g' ∈ range p.groups, xs (p.mm i) g g' * v i g'| ≤ M * ∑ g' ∈ range p.groups, xs (p.mm i) g g' * u i g' := by
  refine (abs_sum_le_sum_abs _ _).trans ?_
  rw [mul_sum]
  refine sum_le_sum fun g' hg' => ?_
  have hg' := mem_range.mp hg'
  rw [abs_mul, abs_of_nonneg (hx i hi g hg g' hg')]
  have := mul_le_mul_of_nonneg_left (hv g' hg') (hx i hi g hg g' hg')
  linarith

/-- One outer sweep, with any number of within-group sweeps in each group, contracts errors measured against `u`. -/
theorem Damps.outer {u : ℕ → ℕ → K} {e : ℕ → ℕ → ℕ → K} (hd : Damps p sigma xs c u e) (ht : Tame p sigma xs)
    (hc1 : c ≤ 1) {external boundary : Arr3 K} {M : K} (hM : 0 ≤ M) {phi : ℕ → ℕ → K}
    {psi : ℕ → ℕ → ℕ → K} (hsol : SolvesMultigroup p sigma xs external boundary phi psi) {old : ℕ → ℕ → K}
    (hold : ∀ i < p.cells, ∀ g < p.groups, |old i g - phi i g| ≤ M * u i g) :
    ∃ new, oneSweepIso p sigma xs external boundary old = .ok new ∧
      ∀ i < p.cells, ∀ g < p.groups, |new i g - phi i g| ≤ c * M * u i g := by
  have hcM : ∀ i < p.cells, ∀ g < p.groups, c * M * u i g ≤ M * u i g := fun i hi g hg => by
    have := mul_le_mul_of_nonneg_right hc1 (mul_nonneg hM (hd.pos i hi g hg).le)
    linarith
  obtain ⟨new, h1, h2⟩ := loopE_inv (fun k (f : ℕ → ℕ → K) =>
      ∀ i < p.cells, ∀ g < k, g < p.groups → |f i g - phi i g| ≤ c * M * u i g)
    p.groups (groupStepIso p sigma xs external boundary old) (fun _ _ => 0)
    (fun i _ g hg => absurd hg (Nat.not_lt_zero _)) (fun k hk f hf => by
      have sweepBound : ∀ a : ℕ → K, (∀ i < p.cells, |a i - phi i k| ≤ M * u i k) →
          ∃ b, isotropicSweep p.cells p.angles (fun m => sigma m k) (fun m => xs m k k)
            (offScatter p.groups f old p.mm xs k) (external.group (bidx external.groups k))
            (boundary.group (bidx boundary.groups k)) p.mm p.dx p.angleX p.angleW p.bcL p.bcR false a
            = .ok b ∧ ∀ i < p.cells, |b i - phi i k| ≤ c * M * u i k := by
        intro a ha
        obtain ⟨b, psi', k1, k2, k3, k4⟩ := isotropicSweep_spec (N := p.cells) (A := p.angles)
          (fun m => sigma m k) (fun m => xs m k k) (offScatter p.groups f old p.mm xs k)
          (external.group (bidx external.groups k)) (boundary.group (bidx boundary.groups k)) p.mm p.dx
          p.angleX p.angleW p.bcL p.bcR false a (ht.ok k hk).nonzero (ht.ok k hk).phys
        refine ⟨b, k1, fun i hi => ?_⟩
        rw [k4 i, hsol.scalar k hk i hi]
        simp only [Bool.false_eq_true, if_false, if_pos hi]
        refine hd.sweep ht hk hM k2 (hsol.balance k hk) k3 (hsol.inflow k hk) (fun n hn i hi => ?_) i hi
        simp only [Arr3.group]
        rw [offScatter_eq _ _ _ _ _ hk, ← add_sum_erase (range p.groups) (fun og => xs (p.mm i) k og * phi i og)
          (mem_range.mpr hk)]
        have e : xs (p.mm i) k k * a i + external.val i (bidx external.angles n) (bidx external.groups k)
              + ∑ og ∈ (range p.groups).erase k, xs (p.mm i) k og * (if og < k then f i og else old i og)
              - (xs (p.mm i) k k * phi i k + ∑ og ∈ (range p.groups).erase k, xs (p.mm i) k og * phi i og
                + external.val i (bidx external.angles n) (bidx external.groups k))
              = ∑ og ∈ range p.groups, xs (p.mm i) k og *
                  ((if og = k then a i else if og < k then f i og else old i og) - phi i og) := by
          rw [← add_sum_erase (range p.groups) _ (mem_range.mpr hk)]
          simp only [if_true]
          have e2 : ∑ og ∈ (range p.groups).erase k, xs (p.mm i) k og *
              ((if og = k then a i else if og < k then f i og else old i og) - phi i og)
              = ∑ og ∈ (range p.groups).erase k, xs (p.mm i) k og * (if og < k then f i og else old i og)
                - ∑ og ∈ (range p.groups).erase k, xs (p.mm i) k og * phi i og := by
            rw [← sum_sub_distrib]
            refine sum_congr rfl fun og hog => ?_
            rw [if_neg (mem_erase.mp hog).1]; ring
          rw [e2]; ring
        rw [e]
        refine secondaries_le (v := fun i og => (if og = k then a i else if og < k then f i og else old i og) - phi i og)
          ht.nonneg hi hk fun og hog => ?_
        by_cases h1 : og = k
        · subst h1; simp only [if_true]; exact ha i hi
        · simp only [if_neg h1]
          by_cases h2 : og < k
          · rw [if_pos h2]; exact (hf i hi og h2 hog).trans (hcM i hi og hog)
          · rw [if_neg h2]; exact hold i hi og hog
      obtain ⟨x, j, _, _, hstep, hP, he, _⟩ := iterateE_spec (isotropicSweep p.cells p.angles
        (fun m => sigma m k) (fun m => xs m k k)
        (offScatter p.groups f old p.mm xs k) (external.group (bidx external.groups k))
        (boundary.group (bidx boundary.groups k)) p.mm p.dx p.angleX p.angleW p.bcL p.bcR false) p.convIn
        (fun a => ∀ i < p.cells, |a i - phi i k| ≤ M * u i k) (fun a ha => by
          obtain ⟨b, hb1, hb2⟩ := sweepBound a ha
          exact ⟨b, hb1, fun i hi => (hb2 i hi).trans (hcM i hi k hk)⟩) 99 (fun i => old i k)
        (fun i hi => hold i hi k hk)
      obtain ⟨b, hb1, hb2⟩ := sweepBound (x j) (hP j (by omega))
      have hbx : b = x (j + 1) := by
        have := hstep j (le_refl _)
        rw [hb1] at this; exact Except.ok.inj this
      refine ⟨putCol f k (x (j + 1)), ?_, fun i hi g hg hgG => ?_⟩
      · unfold groupStepIso
        simp only [(ht.ok k hk).slab, if_true]
        unfold isotropicSn
        rw [he]; rfl
      · unfold putCol
        by_cases hgk : g = k
        · subst hgk; rw [if_pos rfl, ← hbx]; exact hb2 i hi
        · rw [if_neg hgk]; exact hf i hi g (by omega) hgG)
  exact ⟨new, h1, fun i hi g hg => h2 i hi g hg hg⟩

/-- The flux returned after `s` outer sweeps is within `c^s M u` of the solution. -/
theorem Damps.converges {u : ℕ → ℕ → K} {e : ℕ → ℕ → ℕ → K} (hd : Damps p sigma xs c u e) (ht : Tame p sigma xs)
    (hc : 0 ≤ c) (hc1 : c ≤ 1) {external boundary : Arr3 K} {M : K} (hM : 0 ≤ M) {phi : ℕ → ℕ → K}
    {psi : ℕ → ℕ → ℕ → K} (hsol : SolvesMultigroup p sigma xs external boundary phi psi) {guess : ℕ → ℕ → K}
    (hguess : ∀ i < p.cells, ∀ g < p.groups, |guess i g - phi i g| ≤ M * u i g) :
    ∃ flux sweeps, 1 ≤ sweeps ∧ sweeps ≤ 100 ∧
      sourceIteration p sigma (.iso xs) external boundary guess = .ok flux ∧
      (∀ i < p.cells, ∀ g < p.groups, |flux i g - phi i g| ≤ c ^ sweeps * M * u i g) ∧
      (sweeps < 100 → ∃ prev, p.convOut flux prev = true) := by
  obtain ⟨x, s, hs1, hs2, hx0, hstep, he, hconv, _⟩ := C21_source_iteration_stops p sigma xs external
    boundary guess ht.ok
  have key : ∀ j ≤ s, ∀ i < p.cells, ∀ g < p.groups, |x j i g - phi i g| ≤ c ^ j * M * u i g := by
    intro j
    induction j with
    | zero => intro _ i hi g hg; rw [hx0, pow_zero, one_mul]; exact hguess i hi g hg
    | succ j ih =>
      intro hj i hi g hg
      obtain ⟨new, h1, h2⟩ := hd.outer ht hc1 (mul_nonneg (pow_nonneg hc j) hM) hsol (ih (by omega))
      have : new = x (j + 1) := by
        have := hstep j (by omega)
        rw [h1] at this; exact Except.ok.inj this
      subst this
      have := h2 i hi g hg
      rw [pow_succ, mul_comm (c ^ j) c]
      calc _ ≤ _ := this
        _ = _ := by ring
  exact ⟨x s, s, hs1, hs2, he, key s (le_refl _), fun h => ⟨_, hconv h⟩⟩

/-- A problem with a damped positive flux has at most one solution. -/
theorem Damps.unique {u : ℕ → ℕ → K} {e : ℕ → ℕ → ℕ → K} (hd : Damps p sigma xs c u e) (ht : Tame p sigma xs)
    (hc1 : c < 1) {external boundary : Arr3 K} {phi phi' : ℕ → ℕ → K} {psi psi' : ℕ → ℕ → ℕ → K}
    (h : SolvesMultigroup p sigma xs external boundary phi psi)
    (h' : SolvesMultigroup p sigma xs external boundary phi' psi') :
    ∀ i < p.cells, ∀ g < p.groups, phi i g = phi' i g := by
  intro i hi g hg
  obtain ⟨m, hm, hmax⟩ := (range p.cells ×ˢ range p.groups).exists_max_image
    (fun a => |phi a.1 a.2 - phi' a.1 a.2| / u a.1 a.2) ⟨(i, g), by simp [hi, hg]⟩
  obtain ⟨t, htd⟩ : ∃ t, t = |phi m.1 m.2 - phi' m.1 m.2| / u m.1 m.2 := ⟨_, rfl⟩
  have hm1 := mem_range.mp (mem_product.mp hm).1
  have hm2 := mem_range.mp (mem_product.mp hm).2
  have hb : ∀ i < p.cells, ∀ g < p.groups, |phi i g - phi' i g| ≤ t * u i g := fun i hi g hg => by
    have := hmax (i, g) (by simp [hi, hg])
    rw [← htd] at this
    exact (div_le_iff₀ (hd.pos i hi g hg)).mp this
  have ht0 : 0 ≤ t := by rw [htd]; exact div_nonneg (abs_nonneg _) (hd.pos m.1 hm1 m.2 hm2).le
  have hs := hd.sweep ht hm2 ht0 (h.balance m.2 hm2) (h'.balance m.2 hm2) (h.inflow m.2 hm2) (h'.inflow m.2 hm2)
    (fun n hn i hi => by
      have e1 : (∑ og ∈ range p.groups, xs (p.mm i) m.2 og * phi i og)
            + external.val i (bidx external.angles n) (bidx external.groups m.2)
          - ((∑ og ∈ range p.groups, xs (p.mm i) m.2 og * phi' i og)
            + external.val i (bidx external.angles n) (bidx external.groups m.2))
          = ∑ og ∈ range p.groups, xs (p.mm i) m.2 og * (phi i og - phi' i og) := by
        simp only [mul_sub, sum_sub_distrib]; ring
      rw [e1]
      exact secondaries_le (v := fun i og => phi i og - phi' i og) ht.nonneg hi hm2 (fun og hog => hb i hi og hog))
    m.1 hm1
  rw [← h.scalar m.2 hm2 m.1 hm1, ← h'.scalar m.2 hm2 m.1 hm1] at hs
  have hu := hd.pos m.1 hm1 m.2 hm2
  have heq : |phi m.1 m.2 - phi' m.1 m.2| = t * u m.1 m.2 := by
    rw [htd, div_mul_cancel₀ _ hu.ne']
  rw [heq] at hs
  have ht1 : t ≤ 0 := by
    by_contra hcon
    push Not at hcon
    have := mul_pos hcon hu
    nlinarith
  have := hb i hi g hg
  have h0 : |phi i g - phi' i g| ≤ 0 := this.trans (mul_nonpos_of_nonpos_of_nonneg ht1 (hd.pos i hi g hg).le)
  exact sub_eq_zero.mp (abs_nonpos_iff.mp h0)

/-- ... and exactly one, for all sources and boundary data. -/
theorem Damps.exists {u : ℕ → ℕ → K} {e : ℕ → ℕ → ℕ → K} (hd : Damps p sigma xs c u e) (ht : Tame p sigma xs)
    (hc1 : c < 1) (external boundary : Arr3 K) :
    ∃ phi psi, SolvesMultigroup p sigma xs external boundary phi psi :=
  solves_exists_of_unique p sigma xs external boundary ht.ok fun phi e h1 => by
    have h2 : SolvesMultigroup p sigma xs ⟨1, 1, fun _ _ _ => 0⟩ zeroBoundary (fun _ _ => 0)
        (fun _ _ _ => 0) := by
      refine ⟨fun g hg i hi => ?_, fun g hg n hn i hi => ?_, fun g hg n hn => ?_⟩
      · simp [scalarCenter]
      · simp
      · simp [inflow, outflow, zeroBoundary]
    exact hd.unique ht hc1 h1 h2

/-- A positive source alone makes every scalar flux positive. -/
theorem flight_pos (ht : Tame p sigma xs) {q : ℕ → ℕ → ℕ → K} {bnd : Arr3 K} {e : ℕ → ℕ → ℕ → K}
    (he : Streams p sigma q bnd e) (hq : ∀ i < p.cells, ∀ n < p.angles, ∀ g < p.groups, 0 < q i n g)
    (hbL : ∀ n < p.angles, ∀ g < p.groups, 0 < p.angleX n → 0 ≤ sourceAt bnd 0 n g)
    (hbR : ∀ n < p.angles, ∀ g < p.groups, p.angleX n < 0 → 0 ≤ sourceAt bnd 1 n g) :
    ∀ i < p.cells, ∀ g < p.groups, 0 < scalarCenter p.angles p.angleW (e g) i := by
  intro i hi g hg
  have hn := swept_nonneg (ht.ok g hg).nonzero (ht.ok g hg).phys (ht.fine g hg) (he g hg).1 (he g hg).2
    (fun n hn i hi => (hq i hi n hn g hg).le) (fun n hn => hbL n hn g hg) (fun n hn => hbR n hn g hg)
  have havg : ∀ n < p.angles, 0 < (e g n i + e g n (i + 1)) / 2 := by
    intro n hn'
    have a := hn n hn' i hi.le
    have b := hn n hn' (i + 1) hi
    rcases (add_nonneg a b).eq_or_lt with h | h
    · exfalso
      have ha : e g n i = 0 := by linarith
      have hb : e g n (i + 1) = 0 := by linarith
      have := (he g hg).1 n hn' i hi
      rw [ha, hb] at this
      have hq' := hq i hi n hn' g hg
      simp only [sub_zero, mul_zero, zero_div, add_zero] at this
      linarith
    · exact half_pos h
  unfold scalarCenter
  refine sum_pos' (fun n hn => mul_nonneg (ht.weights n (mem_range.mp hn)) (havg n (mem_range.mp hn)).le) ?_
  by_contra hcon
  push Not at hcon
  have hz : ∀ n ∈ range p.angles, p.angleW n = 0 := fun n hn' => by
    have h1 := hcon n hn'
    have h2 := havg n (mem_range.mp hn')
    have h3 := ht.weights n (mem_range.mp hn')
    rcases h3.eq_or_lt with h | h
    · exact h.symm
    · have := mul_pos h h2
      linarith
  have := ht.norm
  rw [sum_eq_zero hz] at this
  exact zero_ne_one this

/-- If the equations have a non-negative solution for one positive source, that solution is positive and damped by a
factor below one. -/
theorem damps_of_solution (ht : Tame p sigma xs) (hN : 0 < p.cells) (hG : 0 < p.groups) {ext bnd : Arr3 K}
    {u : ℕ → ℕ → K} {e : ℕ → ℕ → ℕ → K} (h : SolvesMultigroup p sigma xs ext bnd u e)
    (hu : ∀ i < p.cells, ∀ g < p.groups, 0 ≤ u i g)
    (hq : ∀ i < p.cells, ∀ n < p.angles, ∀ g < p.groups, 0 < sourceAt ext i n g)
    (hbL : ∀ n < p.angles, ∀ g < p.groups, 0 < p.angleX n → 0 ≤ sourceAt bnd 0 n g)
    (hbR : ∀ n < p.angles, ∀ g < p.groups, p.angleX n < 0 → 0 ≤ sourceAt bnd 1 n g) :
    ∃ c e', 0 ≤ c ∧ c < 1 ∧ Damps p sigma xs c u e' := by
  obtain ⟨e1, h1⟩ := streams_exists p sigma
    (fun i _ g => ∑ g' ∈ range p.groups, xs (p.mm i) g g' * u i g') zeroBoundary ht.ok
  obtain ⟨e2, h2⟩ := streams_exists p sigma (fun i n g => sourceAt ext i n g) bnd ht.ok
  have hsum : ∀ g < p.groups, ∀ n < p.angles, ∀ i ≤ p.cells, e g n i = e1 g n i + e2 g n i :=
    streams_unique (q := fun i n g => (∑ og ∈ range p.groups, xs (p.mm i) g og * u i og) + sourceAt ext i n g)
      ht.ok (fun g hg => ⟨h.balance g hg, h.inflow g hg⟩) (streams_zero_add h1 h2) (fun _ _ _ _ _ _ => rfl)
  have hpos2 := flight_pos ht h2 hq hbL hbR
  have hnn1 : ∀ i < p.cells, ∀ g < p.groups, 0 ≤ scalarCenter p.angles p.angleW (e1 g) i := fun i hi g hg =>
    scalarCenter_nonneg ht.weights (fun n hn => swept_nonneg (ht.ok g hg).nonzero (ht.ok g hg).phys (ht.fine g hg)
      (h1 g hg).1 (h1 g hg).2 (fun n hn i hi => sum_nonneg fun g' hg' =>
        mul_nonneg (ht.nonneg i hi g hg g' (mem_range.mp hg')) (hu i hi g' (mem_range.mp hg')))
      (fun _ _ _ => le_refl (0 : K)) (fun _ _ _ => le_refl (0 : K)) n hn i hi.le)
      (fun n hn => swept_nonneg (ht.ok g hg).nonzero (ht.ok g hg).phys (ht.fine g hg)
      (h1 g hg).1 (h1 g hg).2 (fun n hn i hi => sum_nonneg fun g' hg' =>
        mul_nonneg (ht.nonneg i hi g hg g' (mem_range.mp hg')) (hu i hi g' (mem_range.mp hg')))
      (fun _ _ _ => le_refl (0 : K)) (fun _ _ _ => le_refl (0 : K)) n hn (i + 1) hi)
  have hsplit : ∀ i < p.cells, ∀ g < p.groups, u i g
      = scalarCenter p.angles p.angleW (e1 g) i + scalarCenter p.angles p.angleW (e2 g) i := fun i hi g hg => by
    rw [h.scalar g hg i hi]
    unfold scalarCenter
    rw [← sum_add_distrib]
    refine sum_congr rfl fun n hn => ?_
    rw [hsum g hg n (mem_range.mp hn) i hi.le, hsum g hg n (mem_range.mp hn) (i + 1) hi]
    ring
  have hup : ∀ i < p.cells, ∀ g < p.groups, 0 < u i g := fun i hi g hg => by
    rw [hsplit i hi g hg]
    exact add_pos_of_nonneg_of_pos (hnn1 i hi g hg) (hpos2 i hi g hg)
  obtain ⟨m, hm, hmax⟩ := (range p.cells ×ˢ range p.groups).exists_max_image
    (fun a => scalarCenter p.angles p.angleW (e1 a.2) a.1 / u a.1 a.2) ⟨(0, 0), by simp [hN, hG]⟩
  have hm1 := mem_range.mp (mem_product.mp hm).1
  have hm2 := mem_range.mp (mem_product.mp hm).2
  refine ⟨scalarCenter p.angles p.angleW (e1 m.2) m.1 / u m.1 m.2, e1,
    div_nonneg (hnn1 m.1 hm1 m.2 hm2) (hup m.1 hm1 m.2 hm2).le, ?_, hup, h1, fun i hi g hg => ?_⟩
  · rw [div_lt_one (hup m.1 hm1 m.2 hm2), hsplit m.1 hm1 m.2 hm2]
    have := hpos2 m.1 hm1 m.2 hm2
    linarith
  · exact (div_le_iff₀ (hup i hi g hg)).mp (hmax (i, g) (by simp [hi, hg]))

/-- Solutions of a damped problem with non-negative data are non-negative. -/
theorem Damps.nonneg_solution {u : ℕ → ℕ → K} {e : ℕ → ℕ → ℕ → K} (hd : Damps p sigma xs c u e)
    (ht : Tame p sigma xs) (hc1 : c < 1) {ext bnd : Arr3 K} {phi : ℕ → ℕ → K} {psi : ℕ → ℕ → ℕ → K}
    (h : SolvesMultigroup p sigma xs ext bnd phi psi)
    (hq : ∀ i < p.cells, ∀ n < p.angles, ∀ g < p.groups, 0 ≤ sourceAt ext i n g)
    (hbL : ∀ n < p.angles, ∀ g < p.groups, 0 < p.angleX n → 0 ≤ sourceAt bnd 0 n g)
    (hbR : ∀ n < p.angles, ∀ g < p.groups, p.angleX n < 0 → 0 ≤ sourceAt bnd 1 n g) :
    ∀ i < p.cells, ∀ g < p.groups, 0 ≤ phi i g := by
  intro i hi g hg
  obtain ⟨m, hm, hmax⟩ := (range p.cells ×ˢ range p.groups).exists_max_image
    (fun a => -phi a.1 a.2 / u a.1 a.2) ⟨(i, g), by simp [hi, hg]⟩
  obtain ⟨t, htd⟩ : ∃ t, t = -phi m.1 m.2 / u m.1 m.2 := ⟨_, rfl⟩
  have hm1 := mem_range.mp (mem_product.mp hm).1
  have hm2 := mem_range.mp (mem_product.mp hm).2
  have hb : ∀ i < p.cells, ∀ g < p.groups, -phi i g ≤ t * u i g := fun i hi g hg => by
    have := hmax (i, g) (by simp [hi, hg])
    rw [← htd] at this
    exact (div_le_iff₀ (hd.pos i hi g hg)).mp this
  have hu := hd.pos m.1 hm1 m.2 hm2
  have heq : -phi m.1 m.2 = t * u m.1 m.2 := by rw [htd, div_mul_cancel₀ _ hu.ne']
  rcases le_or_gt t 0 with h0 | h0
  · have := hb i hi g hg
    have := mul_nonpos_of_nonpos_of_nonneg h0 (hd.pos i hi g hg).le
    linarith
  exfalso
  have he := hd.streams m.2 hm2
  have key := swept_mono (psi := fun n i => -psi m.2 n i)
    (q := fun n i => -((∑ og ∈ range p.groups, xs (p.mm i) m.2 og * phi i og) + sourceAt ext i n m.2))
    (psi' := fun n i => t * e m.2 n i) (q' := fun n i => t * ∑ g' ∈ range p.groups, xs (p.mm i) m.2 g' * u i g')
    (bL := fun n => -sourceAt bnd 0 n m.2) (bR := fun n => -sourceAt bnd 1 n m.2) (bL' := fun _ => 0)
    (bR' := fun _ => 0) (bcL := p.bcL) (bcR := p.bcR) (ht.ok m.2 hm2).nonzero (ht.ok m.2 hm2).phys (ht.fine m.2 hm2)
    (fun n hn i hi => by
      have x : _ = _ + sourceAt ext i n m.2 := h.balance m.2 hm2 n hn i hi
      simp only at x ⊢
      linear_combination -x)
    (fun n hn i hi => by linear_combination t * he.1 n hn i hi)
    (fun n hn => by
      have x := h.inflow m.2 hm2 n hn
      have e0 : bnd.val 0 (bidx bnd.angles n) (bidx bnd.groups m.2) = sourceAt bnd 0 n m.2 := rfl
      have e1 : bnd.val 1 (bidx bnd.angles n) (bidx bnd.groups m.2) = sourceAt bnd 1 n m.2 := rfl
      simp only [inflow, outflow, e0, e1] at x ⊢
      split_ifs at x ⊢ <;> linear_combination -x)
    (fun n hn => by
      have x := he.2 n hn
      simp only [inflow, outflow, zeroBoundary] at x ⊢
      split_ifs at x ⊢ <;> linear_combination t * x)
    (fun n hn i hi => by
      have h1 : -(∑ og ∈ range p.groups, xs (p.mm i) m.2 og * phi i og)
          ≤ t * ∑ g' ∈ range p.groups, xs (p.mm i) m.2 g' * u i g' := by
        rw [← sum_neg_distrib, mul_sum]
        refine sum_le_sum fun g' hg' => ?_
        have hg' := mem_range.mp hg'
        have := mul_le_mul_of_nonneg_left (hb i hi g' hg') (ht.nonneg i hi m.2 hm2 g' hg')
        linarith
      have := hq i hi n hn m.2 hm2
      linarith)
    (fun n hn hp => neg_nonpos.mpr (hbL n hn m.2 hm2 hp)) (fun n hn hp => neg_nonpos.mpr (hbR n hn m.2 hm2 hp))
  have hs := scalarCenter_mono ht.weights key hm1
  have e1 : scalarCenter p.angles p.angleW (fun n i => -psi m.2 n i) m.1 = -phi m.1 m.2 := by
    rw [h.scalar m.2 hm2 m.1 hm1]
    unfold scalarCenter
    rw [← sum_neg_distrib]
    exact sum_congr rfl fun n _ => by ring
  have e2 : scalarCenter p.angles p.angleW (fun n i => t * e m.2 n i) m.1
      = t * scalarCenter p.angles p.angleW (e m.2) m.1 := by
    unfold scalarCenter
    rw [mul_sum]
    exact sum_congr rfl fun n _ => by ring
  rw [e1, e2, heq] at hs
  have h3 := mul_le_mul_of_nonneg_left (hd.damped m.1 hm1 m.2 hm2) h0.le
  have h4 := mul_pos h0 hu
  nlinarith

/-! ## C185 -/

/-- The data of a fixed-source problem with multiplication: `xs` scattering (contractive by itself), `F` fission. -/
theorem tame_with_fission (hcon : Contractive p sigma xs c) (hF : EmissionNonneg p F) :
    Tame p sigma (fun m g g' => xs m g g' + F m g g') :=
  ⟨hcon.ok, hcon.fine, hcon.weights, hcon.norm, fun i hi g hg g' hg' =>
    add_nonneg (hcon.nonneg i hi g hg g' hg') (hF i hi g hg g' hg')⟩

/-- In a subcritical system a unit source has a non-negative flux. -/
theorem subcritical_unit (hc1 : c < 1) (hcon : Contractive p sigma xs c) (hF : EmissionNonneg p F)
    (hN : 0 < p.cells) (hG : 0 < p.groups) {phi : ℕ → ℕ → K} {k : K} {psi : ℕ → ℕ → ℕ → K} (hk : 0 < k)
    (hk1 : k < 1) (h : KEigenpair p sigma xs F phi k psi) (hpos : ∀ i < p.cells, ∀ g < p.groups, 0 < phi i g) :
    ∃ u e, SolvesMultigroup p sigma (fun m g g' => xs m g g' + F m g g') ⟨p.angles, p.groups, fun _ _ _ => 1⟩
        zeroBoundary u e ∧ ∀ i < p.cells, ∀ g < p.groups, 0 ≤ u i g := by
  have ht := tame_with_fission hcon hF
  obtain ⟨u, e, hs⟩ := solves_exists_of_unique p sigma (fun m g g' => xs m g g' + F m g g')
    ⟨p.angles, p.groups, fun _ _ _ => 1⟩ zeroBoundary ht.ok (fun f e' h' i hi g hg => by
      by_contra hne
      have hpair : KEigenpair p sigma xs F f 1 e' := by
        refine ⟨h'.scalar, fun g hg n hn i hi => ?_, h'.inflow⟩
        have := h'.balance g hg n hn i hi
        simp only [add_mul, sum_add_distrib] at this
        rw [this]; simp
      have := C119_dominant p sigma xs F c hc1 hcon hF f phi 1 k e' psi one_ne_zero hk hpair h hpos
        ⟨i, hi, g, hg, hne⟩
      rw [abs_one] at this
      linarith)
  -- the flux of a unit source is non-negative
  have hans : Answers p sigma xs (fun i g => 1 + emission p F u i g) u := by
    refine ⟨e, hs.scalar, fun g hg n hn i hi => ?_, hs.inflow⟩
    have := hs.balance g hg n hn i hi
    simp only [add_mul, sum_add_distrib, bidx_full _ _ hn, bidx_full _ _ hg] at this ⊢
    rw [this]
    unfold emission
    ring
  have hphi := eigen_answers hk.ne' h
  have hu : ∀ i < p.cells, ∀ g < p.groups, 0 ≤ u i g := by
    obtain ⟨m, hm, hmax⟩ := (range p.cells ×ˢ range p.groups).exists_max_image
      (fun a => -u a.1 a.2 / phi a.1 a.2) ⟨(0, 0), by simp [hN, hG]⟩
    obtain ⟨t, htd⟩ : ∃ t, t = -u m.1 m.2 / phi m.1 m.2 := ⟨_, rfl⟩
    have hm1 := mem_range.mp (mem_product.mp hm).1
    have hm2 := mem_range.mp (mem_product.mp hm).2
    have hb : ∀ i < p.cells, ∀ g < p.groups, -u i g ≤ t * phi i g := fun i hi g hg => by
      have := hmax (i, g) (by simp [hi, hg])
      rw [← htd] at this
      exact (div_le_iff₀ (hpos i hi g hg)).mp this
    have heq : -u m.1 m.2 = t * phi m.1 m.2 := by rw [htd, div_mul_cancel₀ _ (hpos m.1 hm1 m.2 hm2).ne']
    intro i hi g hg
    rcases le_or_gt t 0 with h0 | h0
    · have := hb i hi g hg
      have := mul_nonpos_of_nonpos_of_nonneg h0 (hpos i hi g hg).le
      linarith
    exfalso
    have hcmp := answers_nonneg hc1 hcon (answers_linear t 1 hphi hans) (fun i hi g hg => by
      have : 0 ≤ ∑ g' ∈ range p.groups, F (p.mm i) g g' * (t * phi i g' + u i g') := sum_nonneg fun g' hg' =>
        mul_nonneg (hF i hi g hg g' (mem_range.mp hg')) (by linarith [hb i hi g' (mem_range.mp hg')])
      have e2 : ∑ g' ∈ range p.groups, F (p.mm i) g g' * (t * phi i g' + u i g')
          = t * emission p F phi i g + emission p F u i g := by
        unfold emission
        rw [mul_sum, ← sum_add_distrib]
        exact sum_congr rfl fun _ _ => by ring
      linarith) m.1 hm1 m.2 hm2
    have h4 := mul_pos h0 (hpos m.1 hm1 m.2 hm2)
    nlinarith
  exact ⟨u, e, hs, hu⟩

/-- Subcritical systems are damped. -/
theorem subcritical_damps (hc1 : c < 1) (hcon : Contractive p sigma xs c) (hF : EmissionNonneg p F)
    (hN : 0 < p.cells) (hG : 0 < p.groups) {phi : ℕ → ℕ → K} {k : K} {psi : ℕ → ℕ → ℕ → K} (hk : 0 < k)
    (hk1 : k < 1) (h : KEigenpair p sigma xs F phi k psi) (hpos : ∀ i < p.cells, ∀ g < p.groups, 0 < phi i g) :
    ∃ r u e, 0 ≤ r ∧ r < 1 ∧ Damps p sigma (fun m g g' => xs m g g' + F m g g') r u e := by
  obtain ⟨u, e, hs, hu⟩ := subcritical_unit hc1 hcon hF hN hG hk hk1 h hpos
  obtain ⟨r, e', hr0, hr1, hd⟩ := damps_of_solution (tame_with_fission hcon hF) hN hG hs hu
    (fun i hi n hn g hg => by rw [sourceAt_full _ hn hg]; exact zero_lt_one)
    (fun _ _ _ _ _ => le_refl (0 : K)) (fun _ _ _ _ _ => le_refl (0 : K))
  exact ⟨r, u, e', hr0, hr1, hd⟩

/-- C185: in a subcritical system (`0 < k < 1` with a positive flux), however strong fission is compared to the total
cross section, the fixed-source equations have exactly one solution for all sources and boundary data, it is
non-negative for non-negative data, and source iteration from every guess contracts the error by a fixed factor
`r < 1` per sweep (measured against a fixed positive flux `u`). -/
theorem C185_subcritical_converges (p : Problem K) (sigma : ℕ → ℕ → K) (xs F : ℕ → ℕ → ℕ → K) (c : K) (hc1 : c < 1)
    (hcon : Contractive p sigma xs c) (hF : EmissionNonneg p F) (hN : 0 < p.cells) (hG : 0 < p.groups)
    (phi : ℕ → ℕ → K) (k : K) (psi : ℕ → ℕ → ℕ → K) (hk : 0 < k) (hk1 : k < 1)
    (h : KEigenpair p sigma xs F phi k psi) (hpos : ∀ i < p.cells, ∀ g < p.groups, 0 < phi i g) :
    ∃ (r : K) (u : ℕ → ℕ → K), 0 ≤ r ∧ r < 1 ∧ (∀ i < p.cells, ∀ g < p.groups, 0 < u i g) ∧
      ∀ ext bnd : Arr3 K, ∃ sol e,
        SolvesMultigroup p sigma (fun m g g' => xs m g g' + F m g g') ext bnd sol e ∧
        (∀ sol' e', SolvesMultigroup p sigma (fun m g g' => xs m g g' + F m g g') ext bnd sol' e' →
          ∀ i < p.cells, ∀ g < p.groups, sol' i g = sol i g) ∧
        ((∀ i < p.cells, ∀ n < p.angles, ∀ g < p.groups, 0 ≤ sourceAt ext i n g) →
          (∀ n < p.angles, ∀ g < p.groups, 0 < p.angleX n → 0 ≤ sourceAt bnd 0 n g) →
          (∀ n < p.angles, ∀ g < p.groups, p.angleX n < 0 → 0 ≤ sourceAt bnd 1 n g) →
          ∀ i < p.cells, ∀ g < p.groups, 0 ≤ sol i g) ∧
        ∀ (guess : ℕ → ℕ → K) (M : K), 0 ≤ M →
          (∀ i < p.cells, ∀ g < p.groups, |guess i g - sol i g| ≤ M * u i g) →
          ∃ flux sweeps, 1 ≤ sweeps ∧ sweeps ≤ 100 ∧
            sourceIteration p sigma (.iso fun m g g' => xs m g g' + F m g g') ext bnd guess = .ok flux ∧
            (∀ i < p.cells, ∀ g < p.groups, |flux i g - sol i g| ≤ r ^ sweeps * M * u i g) ∧
            (sweeps < 100 → ∃ prev, p.convOut flux prev = true) := by
  have ht := tame_with_fission hcon hF
  obtain ⟨r, u, e, hr0, hr1, hd⟩ := subcritical_damps hc1 hcon hF hN hG hk hk1 h hpos
  refine ⟨r, u, hr0, hr1, hd.pos, fun ext bnd => ?_⟩
  obtain ⟨sol, e', hs⟩ := hd.exists ht hr1 ext bnd
  exact ⟨sol, e', hs, fun sol' e'' h' => hd.unique ht hr1 h' hs, hd.nonneg_solution ht hr1 hs, fun guess M hM hg =>
    hd.converges ht hr0 hr1.le hM hs hg⟩

/-- C185, exactly then: next to a positive eigenpair `(phi, k)`, the equations with a source that is positive
everywhere have a non-negative solution if and only if `k < 1`. -/
theorem C185_solvable_iff_subcritical (p : Problem K) (sigma : ℕ → ℕ → K) (xs F : ℕ → ℕ → ℕ → K) (c : K) (hc1 : c < 1)
    (hcon : Contractive p sigma xs c) (hF : EmissionNonneg p F) (hN : 0 < p.cells) (hG : 0 < p.groups)
    (phi : ℕ → ℕ → K) (k : K) (psi : ℕ → ℕ → ℕ → K) (hk : 0 < k)
    (h : KEigenpair p sigma xs F phi k psi) (hpos : ∀ i < p.cells, ∀ g < p.groups, 0 < phi i g) (ext bnd : Arr3 K)
    (hq : ∀ i < p.cells, ∀ n < p.angles, ∀ g < p.groups, 0 < sourceAt ext i n g)
    (hbL : ∀ n < p.angles, ∀ g < p.groups, 0 < p.angleX n → 0 ≤ sourceAt bnd 0 n g)
    (hbR : ∀ n < p.angles, ∀ g < p.groups, p.angleX n < 0 → 0 ≤ sourceAt bnd 1 n g) :
    (∃ sol e, SolvesMultigroup p sigma (fun m g g' => xs m g g' + F m g g') ext bnd sol e ∧
      ∀ i < p.cells, ∀ g < p.groups, 0 ≤ sol i g) ↔ k < 1 := by
  have ht := tame_with_fission hcon hF
  constructor
  · rintro ⟨u, e, hs, hu⟩
    obtain ⟨_, _, _, _, hd⟩ := damps_of_solution ht hN hG hs hu hq hbL hbR
    have hA : 0 < p.angles := by
      rcases Nat.eq_zero_or_pos p.angles with h0 | h0
      · have := ht.norm
        rw [h0] at this
        simp at this
      · exact h0
    -- the smallest source and the largest emission
    obtain ⟨a, ha, hmin⟩ := (range p.cells ×ˢ range p.angles ×ˢ range p.groups).exists_min_image
      (fun a => sourceAt ext a.1 a.2.1 a.2.2) ⟨(0, 0, 0), by simp [hN, hG, hA]⟩
    obtain ⟨b, hb, hmax⟩ := (range p.cells ×ˢ range p.groups).exists_max_image
      (fun b => emission p F u b.1 b.2) ⟨(0, 0), by simp [hN, hG]⟩
    obtain ⟨Q, hQ⟩ : ∃ Q, Q = sourceAt ext a.1 a.2.1 a.2.2 := ⟨_, rfl⟩
    obtain ⟨B, hB⟩ : ∃ B, B = emission p F u b.1 b.2 := ⟨_, rfl⟩
    have ha1 := mem_product.mp ha
    have ha2 := mem_product.mp ha1.2
    have hQ0 : 0 < Q := by
      rw [hQ]
      exact hq _ (mem_range.mp ha1.1) _ (mem_range.mp ha2.1) _ (mem_range.mp ha2.2)
    have hem : ∀ i < p.cells, ∀ g < p.groups, 0 ≤ emission p F u i g := fun i hi g hg => sum_nonneg fun g' hg' =>
      mul_nonneg (hF i hi g hg g' (mem_range.mp hg')) (hu i hi g' (mem_range.mp hg'))
    have hb1 := mem_product.mp hb
    have hB0 : 0 ≤ B := by rw [hB]; exact hem _ (mem_range.mp hb1.1) _ (mem_range.mp hb1.2)
    have hk' : 0 < (B + Q / 2) / (B + Q) := div_pos (by linarith) (by linarith)
    have hlt : (B + Q / 2) / (B + Q) < 1 := (div_lt_one (by linarith)).mpr (by linarith)
    have := supersolution_dominates p sigma xs F c hc1 hcon hF phi u k ((B + Q / 2) / (B + Q)) psi e hk.ne' hk' h
      (fun i n g => sourceAt ext i n g - (Q / 2) / (B + Q / 2) * emission p F u i g) bnd (fun i hi n hn g hg => by
        have h1 : Q ≤ sourceAt ext i n g := by rw [hQ]; exact hmin (i, n, g) (by simp [hi, hn, hg])
        have h2 : emission p F u i g ≤ B := by rw [hB]; exact hmax (i, g) (by simp [hi, hg])
        have h3 : (Q / 2) / (B + Q / 2) * emission p F u i g ≤ Q / 2 := by
          rw [div_mul_eq_mul_div, div_le_iff₀ (by linarith)]
          nlinarith
        linarith) hbL hbR
      (by
        refine ⟨hs.scalar, fun g hg n hn i hi => ?_, hs.inflow⟩
        have := hs.balance g hg n hn i hi
        have e0 : ext.val i (bidx ext.angles n) (bidx ext.groups g) = sourceAt ext i n g := rfl
        simp only [add_mul, sum_add_distrib, e0] at this
        simp only [bidx_full _ _ hn, bidx_full _ _ hg]
        rw [this]
        have e1 : (∑ g' ∈ range p.groups, F (p.mm i) g g' * u i g') / ((B + Q / 2) / (B + Q))
            = (∑ g' ∈ range p.groups, F (p.mm i) g g' * u i g')
              + (Q / 2) / (B + Q / 2) * emission p F u i g := by
          unfold emission
          have h1 : B + Q ≠ 0 := by linarith
          have h2 : B + Q / 2 ≠ 0 := by linarith
          field_simp
          ring
        rw [e1]; ring) hd.pos ⟨0, hN, 0, hG, (hpos 0 hN 0 hG).ne'⟩
    rw [abs_of_pos hk] at this
    linarith
  · intro hk1
    obtain ⟨r, u, e, _, hr1, hd⟩ := subcritical_damps hc1 hcon hF hN hG hk hk1 h hpos
    obtain ⟨sol, e', hs⟩ := hd.exists ht hr1 ext bnd
    exact ⟨sol, e', hs, hd.nonneg_solution ht hr1 hs (fun i hi n hn g hg => (hq i hi n hn g hg).le) hbL hbR⟩

/-- In a system with `k ≥ 1` one outer sweep adds at least the flux `e` of the source alone (`delta phi` of it) to any
multiple of the fundamental flux `phi`. -/
theorem supercritical_outer (hcon : Contractive p sigma xs c) (hF : EmissionNonneg p F)
    {phi : ℕ → ℕ → K} {k : K} {psi : ℕ → ℕ → ℕ → K} (hk : 1 ≤ k) (h : KEigenpair p sigma xs F phi k psi)
    (hpos : ∀ i < p.cells, ∀ g < p.groups, 0 < phi i g) {ext bnd : Arr3 K} {e : ℕ → ℕ → ℕ → K}
    (he : Streams p sigma (fun i n g => sourceAt ext i n g) bnd e) {delta : K} (hd0 : 0 ≤ delta)
    (hdelta : ∀ i < p.cells, ∀ g < p.groups, delta * phi i g ≤ scalarCenter p.angles p.angleW (e g) i)
    {t : K} (ht0 : 0 ≤ t) {old : ℕ → ℕ → K} (hold : ∀ i < p.cells, ∀ g < p.groups, t * phi i g ≤ old i g) :
    ∃ new, oneSweepIso p sigma (fun m g g' => xs m g g' + F m g g') ext bnd old = .ok new ∧
      ∀ i < p.cells, ∀ g < p.groups, (t + delta) * phi i g ≤ new i g := by
  have ht := tame_with_fission hcon hF
  have hstay : ∀ i < p.cells, ∀ g < p.groups, t * phi i g ≤ (t + delta) * phi i g := fun i hi g hg =>
    mul_le_mul_of_nonneg_right (by linarith) (hpos i hi g hg).le
  obtain ⟨new, h1, h2⟩ := loopE_inv (fun k' (f : ℕ → ℕ → K) =>
      ∀ i < p.cells, ∀ g < k', g < p.groups → (t + delta) * phi i g ≤ f i g)
    p.groups (groupStepIso p sigma (fun m g g' => xs m g g' + F m g g') ext bnd old) (fun _ _ => 0)
    (fun i _ g hg => absurd hg (Nat.not_lt_zero _)) (fun j hj f hf => by
      have sweepBound : ∀ a : ℕ → K, (∀ i < p.cells, t * phi i j ≤ a i) →
          ∃ b, isotropicSweep p.cells p.angles (fun m => sigma m j) (fun m => xs m j j + F m j j)
            (offScatter p.groups f old p.mm (fun m g g' => xs m g g' + F m g g') j)
            (ext.group (bidx ext.groups j))
            (bnd.group (bidx bnd.groups j)) p.mm p.dx p.angleX p.angleW p.bcL p.bcR false a
            = .ok b ∧ ∀ i < p.cells, (t + delta) * phi i j ≤ b i := by
        intro a ha
        obtain ⟨b, psi', k1, k2, k3, k4⟩ := isotropicSweep_spec (N := p.cells) (A := p.angles)
          (fun m => sigma m j) (fun m => xs m j j + F m j j)
          (offScatter p.groups f old p.mm (fun m g g' => xs m g g' + F m g g') j)
          (ext.group (bidx ext.groups j)) (bnd.group (bidx bnd.groups j)) p.mm p.dx
          p.angleX p.angleW p.bcL p.bcR false a (ht.ok j hj).nonzero (ht.ok j hj).phys
        refine ⟨b, k1, fun i hi => ?_⟩
        rw [k4 i]
        simp only [Bool.false_eq_true, if_false, if_pos hi]
        have key := swept_mono (psi := fun n i => t * psi j n i + e j n i)
          (q := fun n i => t * (∑ g' ∈ range p.groups, xs (p.mm i) j g' * phi i g'
            + (∑ g' ∈ range p.groups, F (p.mm i) j g' * phi i g') / k) + sourceAt ext i n j)
          (bcL := p.bcL) (bcR := p.bcR)
          (bL := fun n => bnd.val 0 (bidx bnd.angles n) (bidx bnd.groups j))
          (bR := fun n => bnd.val 1 (bidx bnd.angles n) (bidx bnd.groups j))
          (ht.ok j hj).nonzero (ht.ok j hj).phys (ht.fine j hj)
          (fun n hn i hi => by linear_combination t * h.balance j hj n hn i hi + (he j hj).1 n hn i hi) k2
          (fun n hn => by
            have x := h.inflow j hj n hn
            have y := (he j hj).2 n hn
            simp only [inflow, outflow] at x y ⊢
            split_ifs at x y ⊢ <;> linear_combination t * x + y) k3
          (fun n hn i hi => by
            simp only [Arr3.group]
            rw [offScatter_eq _ _ _ _ _ hj]
            have e0 : ext.val i (bidx ext.angles n) (bidx ext.groups j) = sourceAt ext i n j := rfl
            rw [e0]
            have hk0 : 0 < k := lt_of_lt_of_le zero_lt_one hk
            have hfis : (∑ g' ∈ range p.groups, F (p.mm i) j g' * phi i g') / k
                ≤ ∑ g' ∈ range p.groups, F (p.mm i) j g' * phi i g' :=
              div_le_self (sum_nonneg fun g' hg' => mul_nonneg (hF i hi j hj g' (mem_range.mp hg'))
                (hpos i hi g' (mem_range.mp hg')).le) hk
            have hsum : t * (∑ g' ∈ range p.groups, xs (p.mm i) j g' * phi i g'
                + ∑ g' ∈ range p.groups, F (p.mm i) j g' * phi i g')
                ≤ (xs (p.mm i) j j + F (p.mm i) j j) * a i + ∑ og ∈ (range p.groups).erase j,
                  (xs (p.mm i) j og + F (p.mm i) j og) * (if og < j then f i og else old i og) := by
              rw [← sum_add_distrib, mul_sum, ← add_sum_erase _ _ (mem_range.mpr hj)]
              refine add_le_add ?_ (sum_le_sum fun og hog => ?_)
              · have := mul_le_mul_of_nonneg_left (ha i hi) (ht.nonneg i hi j hj j hj)
                linarith
              · have hog' := mem_range.mp (mem_of_mem_erase hog)
                have hv : t * phi i og ≤ (if og < j then f i og else old i og) := by
                  split_ifs with hlt
                  · exact (hstay i hi og hog').trans (hf i hi og hlt hog')
                  · exact hold i hi og hog'
                have := mul_le_mul_of_nonneg_left hv (ht.nonneg i hi j hj og hog')
                linarith
            have := mul_le_mul_of_nonneg_left hfis ht0
            linarith)
          (fun _ _ _ => le_refl _) (fun _ _ _ => le_refl _)
        have hs := scalarCenter_mono ht.weights key hi
        have e1 : scalarCenter p.angles p.angleW (fun n i => t * psi j n i + e j n i) i
            = t * phi i j + scalarCenter p.angles p.angleW (e j) i := by
          rw [h.scalar j hj i hi]
          unfold scalarCenter
          rw [mul_sum, ← sum_add_distrib]
          exact sum_congr rfl fun n _ => by ring
        rw [e1] at hs
        have := hdelta i hi j hj
        linarith
      obtain ⟨x, s, _, _, hstep, hP, he', _⟩ := iterateE_spec (isotropicSweep p.cells p.angles
        (fun m => sigma m j) (fun m => xs m j j + F m j j)
        (offScatter p.groups f old p.mm (fun m g g' => xs m g g' + F m g g') j) (ext.group (bidx ext.groups j))
        (bnd.group (bidx bnd.groups j)) p.mm p.dx p.angleX p.angleW p.bcL p.bcR false) p.convIn
        (fun a => ∀ i < p.cells, t * phi i j ≤ a i) (fun a ha => by
          obtain ⟨b, hb1, hb2⟩ := sweepBound a ha
          exact ⟨b, hb1, fun i hi => (hstay i hi j hj).trans (hb2 i hi)⟩) 99 (fun i => old i j)
        (fun i hi => hold i hi j hj)
      obtain ⟨b, hb1, hb2⟩ := sweepBound (x s) (hP s (by omega))
      have hbx : b = x (s + 1) := by
        have := hstep s (le_refl _)
        rw [hb1] at this; exact Except.ok.inj this
      refine ⟨putCol f j (x (s + 1)), ?_, fun i hi g hg hgG => ?_⟩
      · unfold groupStepIso
        simp only [(ht.ok j hj).slab, if_true]
        unfold isotropicSn
        rw [he']; rfl
      · unfold putCol
        by_cases hgk : g = j
        · subst hgk; rw [if_pos rfl, ← hbx]; exact hb2 i hi
        · rw [if_neg hgk]; exact hf i hi g (by omega) hgG)
  exact ⟨new, h1, fun i hi g hg => h2 i hi g hg hg⟩

/-- C185, otherwise: with a positive source in a critical or supercritical system (`k ≥ 1`) there is nothing to converge
to - no non-negative flux solves the equations - and every sweep raises the flux in all cells and groups by at least the
same amount `delta phi`; `source_iteration` nevertheless returns (the flux of its last sweep), without any error. -/
theorem C185_supercritical_grows (p : Problem K) (sigma : ℕ → ℕ → K) (xs F : ℕ → ℕ → ℕ → K) (c : K) (hc1 : c < 1)
    (hcon : Contractive p sigma xs c) (hF : EmissionNonneg p F) (hN : 0 < p.cells) (hG : 0 < p.groups)
    (phi : ℕ → ℕ → K) (k : K) (psi : ℕ → ℕ → ℕ → K) (hk : 1 ≤ k)
    (h : KEigenpair p sigma xs F phi k psi) (hpos : ∀ i < p.cells, ∀ g < p.groups, 0 < phi i g) (ext bnd : Arr3 K)
    (hq : ∀ i < p.cells, ∀ n < p.angles, ∀ g < p.groups, 0 < sourceAt ext i n g)
    (hbL : ∀ n < p.angles, ∀ g < p.groups, 0 < p.angleX n → 0 ≤ sourceAt bnd 0 n g)
    (hbR : ∀ n < p.angles, ∀ g < p.groups, p.angleX n < 0 → 0 ≤ sourceAt bnd 1 n g) :
    (¬ ∃ sol e, SolvesMultigroup p sigma (fun m g g' => xs m g g' + F m g g') ext bnd sol e ∧
      ∀ i < p.cells, ∀ g < p.groups, 0 ≤ sol i g) ∧
    ∃ delta : K, 0 < delta ∧ ∀ guess : ℕ → ℕ → K, (∀ i < p.cells, ∀ g < p.groups, 0 ≤ guess i g) →
      ∃ (flux : ℕ → ℕ → K) (sweeps : ℕ), 1 ≤ sweeps ∧ sweeps ≤ 100 ∧
        sourceIteration p sigma (.iso fun m g g' => xs m g g' + F m g g') ext bnd guess = .ok flux ∧
        (∀ i < p.cells, ∀ g < p.groups, (sweeps : K) * delta * phi i g ≤ flux i g) ∧
        (sweeps < 100 → ∃ prev, p.convOut flux prev = true) := by
  have ht := tame_with_fission hcon hF
  refine ⟨fun hs => ?_, ?_⟩
  · have := (C185_solvable_iff_subcritical p sigma xs F c hc1 hcon hF hN hG phi k psi
      (lt_of_lt_of_le zero_lt_one hk) h hpos ext bnd hq hbL hbR).mp hs
    linarith
  obtain ⟨e, he⟩ := streams_exists p sigma (fun i n g => sourceAt ext i n g) bnd ht.ok
  have hflight := flight_pos ht he hq hbL hbR
  obtain ⟨m, hm, hmin⟩ := (range p.cells ×ˢ range p.groups).exists_min_image
    (fun a => scalarCenter p.angles p.angleW (e a.2) a.1 / phi a.1 a.2) ⟨(0, 0), by simp [hN, hG]⟩
  have hm1 := mem_range.mp (mem_product.mp hm).1
  have hm2 := mem_range.mp (mem_product.mp hm).2
  obtain ⟨delta, hdd⟩ : ∃ d, d = scalarCenter p.angles p.angleW (e m.2) m.1 / phi m.1 m.2 := ⟨_, rfl⟩
  have hd0 : 0 < delta := by rw [hdd]; exact div_pos (hflight m.1 hm1 m.2 hm2) (hpos m.1 hm1 m.2 hm2)
  have hdelta : ∀ i < p.cells, ∀ g < p.groups, delta * phi i g ≤ scalarCenter p.angles p.angleW (e g) i :=
    fun i hi g hg => by
      have := hmin (i, g) (by simp [hi, hg])
      rw [← hdd] at this
      exact (le_div_iff₀ (hpos i hi g hg)).mp this
  refine ⟨delta, hd0, fun guess hguess => ?_⟩
  obtain ⟨x, s, hs1, hs2, hx0, hstep, hrun, hconv, _⟩ := C21_source_iteration_stops p sigma
    (fun m g g' => xs m g g' + F m g g') ext bnd guess ht.ok
  have key : ∀ j ≤ s, ∀ i < p.cells, ∀ g < p.groups, (j : K) * delta * phi i g ≤ x j i g := by
    intro j
    induction j with
    | zero => intro _ i hi g hg; rw [hx0]; simpa using hguess i hi g hg
    | succ j ih =>
      intro hj i hi g hg
      obtain ⟨new, h1, h2⟩ := supercritical_outer hcon hF hk h hpos he hd0.le hdelta
        (mul_nonneg (Nat.cast_nonneg j) hd0.le) (ih (by omega))
      have : new = x (j + 1) := by
        have := hstep j (by omega)
        rw [h1] at this; exact Except.ok.inj this
      subst this
      have := h2 i hi g hg
      push_cast
      calc _ = _ := by ring
        _ ≤ _ := this
  exact ⟨x s, s, hs1, hs2, hrun, key s le_rfl, fun h => ⟨_, hconv h⟩⟩

/-- C185 for `fixed1d.source_iteration`: scattering and fission handed in separately (fission as a matrix, or as `chi`
and `nusigf`), started from zero. -/
theorem C185_fixed_source (p : Problem K) (sigma : ℕ → ℕ → K) (scatter : ℕ → ℕ → ℕ → K) (fission : Fission K) (c : K)
    (hc1 : c < 1) (hcon : Contractive p sigma scatter c) (hF : EmissionNonneg p (fissionMatrix fission))
    (hN : 0 < p.cells) (hG : 0 < p.groups) (phi : ℕ → ℕ → K) (k : K) (psi : ℕ → ℕ → ℕ → K) (hk : 0 < k) (hk1 : k < 1)
    (h : KEigenpair p sigma scatter (fissionMatrix fission) phi k psi)
    (hpos : ∀ i < p.cells, ∀ g < p.groups, 0 < phi i g) :
    ∃ (r : K) (u : ℕ → ℕ → K), 0 ≤ r ∧ r < 1 ∧ (∀ i < p.cells, ∀ g < p.groups, 0 < u i g) ∧
      ∀ ext bnd : Arr3 K, ∃ sol e,
        SolvesMultigroup p sigma (fun m g g' => scatter m g g' + fissionMatrix fission m g g') ext bnd sol e ∧
        ∀ M : K, 0 ≤ M → (∀ i < p.cells, ∀ g < p.groups, |sol i g| ≤ M * u i g) →
          ∃ flux sweeps, 1 ≤ sweeps ∧ sweeps ≤ 100 ∧
            fixedSourceIteration p sigma (.iso scatter) fission ext bnd false false = .ok (.scalar flux) ∧
            ∀ i < p.cells, ∀ g < p.groups, |flux i g - sol i g| ≤ r ^ sweeps * M * u i g := by
  obtain ⟨r, u, hr0, hr1, hu, hall⟩ := C185_subcritical_converges p sigma scatter (fissionMatrix fission) c hc1 hcon hF
    hN hG phi k psi hk hk1 h hpos
  refine ⟨r, u, hr0, hr1, hu, fun ext bnd => ?_⟩
  obtain ⟨sol, e, hs, _, _, hrun⟩ := hall ext bnd
  refine ⟨sol, e, hs, fun M hM hb => ?_⟩
  obtain ⟨flux, s, h1, h2, h3, h4, _⟩ := hrun (fun _ _ => 0) M hM (fun i hi g hg => by
    rw [zero_sub, abs_neg]; exact hb i hi g hg)
  refine ⟨flux, s, h1, h2, ?_, h4⟩
  unfold fixedSourceIteration
  rw [transfer_iso]
  simp only [h3]
  simp

end General

/-! ### Examples: the halves and the whole of a bare slab; fission exceeds the total cross section by 4/5 -/

theorem exHalfContractive : Contractive (subSlab exBare 1 1) (fun _ _ => 1) (fun _ _ _ => 0) (1 / 2) where
  ok := fun g _ => ⟨rfl, fun n _ => by simp only [exBare, subSlab]; split_ifs <;> norm_num,
    fun i _ => by simp [exBare, subSlab]⟩
  fine := fun g _ n _ i _ => by simp only [exBare, subSlab]; split_ifs <;> norm_num
  weights := fun n _ => by norm_num [exBare, subSlab]
  norm := by norm_num [exBare, subSlab]
  nonneg := fun _ _ _ _ _ _ => le_rfl
  rows := fun _ _ _ _ => by norm_num [exBare, subSlab]

-- one half is subcritical, `k = 3/5`
example := C185_subcritical_converges (subSlab exBare 1 1) (fun _ _ => 1) (fun _ _ _ => 0) (fun _ _ _ => 9 / 5) (1 / 2)
  (by norm_num) exHalfContractive (fun _ _ _ _ _ _ => by norm_num) (by decide) (by decide) _ _ _ (by norm_num)
  (by norm_num) exBareHalf (fun _ _ _ _ => by norm_num)

example := C185_fixed_source (subSlab exBare 1 1) (fun _ _ => 1) (fun _ _ _ => 0) (.matrix fun _ _ _ => 9 / 5) (1 / 2)
  (by norm_num) exHalfContractive (fun _ _ _ _ _ _ => by norm_num [fissionMatrix]) (by decide) (by decide) _ _ _
  (by norm_num) (by norm_num) exBareHalf (fun _ _ _ _ => by norm_num)

-- and the whole is critical
example := C185_solvable_iff_subcritical exBare (fun _ _ => 1) (fun _ _ _ => 0) (fun _ _ _ => 9 / 5) (1 / 2)
  (by norm_num) exBareContractive (fun _ _ _ _ _ _ => by norm_num) (by decide) (by decide) _ _ _ (by norm_num)
  exBarePair (fun _ _ _ _ => by norm_num) ⟨1, 1, fun _ _ _ => 1⟩ zeroBoundary
  (fun _ _ _ _ _ _ => zero_lt_one) (fun _ _ _ _ _ => le_rfl) (fun _ _ _ _ _ => le_rfl)

example := C185_supercritical_grows exBare (fun _ _ => 1) (fun _ _ _ => 0) (fun _ _ _ => 9 / 5) (1 / 2)
  (by norm_num) exBareContractive (fun _ _ _ _ _ _ => by norm_num) (by decide) (by decide) _ _ _ (by norm_num)
  exBarePair (fun _ _ _ _ => by norm_num) ⟨1, 1, fun _ _ _ => 1⟩ zeroBoundary
  (fun _ _ _ _ _ _ => zero_lt_one) (fun _ _ _ _ _ => le_rfl) (fun _ _ _ _ _ => le_rfl)

end Discrete1.Props
