import Verif.Props.Subcritical

/-!
# C186: long-time behaviour of `timed1d.backward_euler`

Relaxation to the steady state in subcritical systems, persistence and growth in critical and supercritical ones; for
every behaviour of the convergence tests, so even if each time step makes only one sweep.
-/

set_option linter.unusedSectionVars false
set_option linter.unusedSimpArgs false

namespace Discrete1.Props

open Finset Discrete1.Spec Discrete1.Slab Discrete1.Tools Discrete1.MultiGroup Discrete1.Drivers Discrete1.Critical

section General

variable {K : Type} [Field K] [LinearOrder K] [IsStrictOrderedRing K]
variable {p : Problem K} {sigma : ℕ → ℕ → K} {xs F : ℕ → ℕ → ℕ → K} {c : K}

/-- One outer sweep (any number of within-group sweeps in each group): every column it writes is the scalar flux of a
transport sweep whose scattering source comes from fluxes that satisfy `A`; so if such sweeps lead from `A` to `B`, and
`B` implies `A`, the new flux satisfies `B`. -/
theorem oneSweep_inv (hok : ∀ g < p.groups, SlabOk p sigma g) {ext bnd : Arr3 K} {A B : ℕ → ℕ → K → Prop}
    (hBA : ∀ i < p.cells, ∀ g < p.groups, ∀ v, B i g v → A i g v)
    (hS : ∀ f : ℕ → ℕ → K, (∀ i < p.cells, ∀ g < p.groups, A i g (f i g)) → ∀ k < p.groups, ∀ psi : ℕ → ℕ → K,
      AllBalanced p.cells p.angles p.angleX p.dx (fun i => sigma (p.mm i) k)
        (fun n i => (∑ g' ∈ range p.groups, xs (p.mm i) k g' * f i g') + sourceAt ext i n k) psi →
      SweptInflow p.cells p.angles p.angleX p.bcL p.bcR (fun n => sourceAt bnd 0 n k) (fun n => sourceAt bnd 1 n k)
        psi → ∀ i < p.cells, B i k (scalarCenter p.angles p.angleW psi i))
    {old : ℕ → ℕ → K} (hold : ∀ i < p.cells, ∀ g < p.groups, A i g (old i g)) :
    ∃ new, oneSweepIso p sigma xs ext bnd old = .ok new ∧ ∀ i < p.cells, ∀ g < p.groups, B i g (new i g) := by
  obtain ⟨new, h1, h2⟩ := loopE_inv (fun k (f : ℕ → ℕ → K) =>
      ∀ i < p.cells, ∀ g < k, g < p.groups → B i g (f i g))
    p.groups (groupStepIso p sigma xs ext bnd old) (fun _ _ => 0)
    (fun i _ g hg => absurd hg (Nat.not_lt_zero _)) (fun k hk f hf => by
      have sweepBound : ∀ a : ℕ → K, (∀ i < p.cells, A i k (a i)) →
          ∃ b, isotropicSweep p.cells p.angles (fun m => sigma m k) (fun m => xs m k k)
            (offScatter p.groups f old p.mm xs k) (ext.group (bidx ext.groups k))
            (bnd.group (bidx bnd.groups k)) p.mm p.dx p.angleX p.angleW p.bcL p.bcR false a
            = .ok b ∧ ∀ i < p.cells, B i k (b i) := by
        intro a ha
        obtain ⟨b, psi', k1, k2, k3, k4⟩ := isotropicSweep_spec (N := p.cells) (A := p.angles)
          (fun m => sigma m k) (fun m => xs m k k) (offScatter p.groups f old p.mm xs k)
          (ext.group (bidx ext.groups k)) (bnd.group (bidx bnd.groups k)) p.mm p.dx
          p.angleX p.angleW p.bcL p.bcR false a (hok k hk).nonzero (hok k hk).phys
        refine ⟨b, k1, fun i hi => ?_⟩
        rw [k4 i]
        simp only [Bool.false_eq_true, if_false, if_pos hi]
        refine hS (fun i og => if og = k then a i else if og < k then f i og else old i og) (fun i hi og hog => ?_)
          k hk psi' (fun n hn i hi => ?_) k3 i hi
        · by_cases h1 : og = k
          · subst h1; simp only [if_true]; exact ha i hi
          · simp only [if_neg h1]
            by_cases h2 : og < k
            · rw [if_pos h2]; exact hBA i hi og hog _ (hf i hi og h2 hog)
            · rw [if_neg h2]; exact hold i hi og hog
        · have := k2 n hn i hi
          simp only [Arr3.group] at this
          rw [offScatter_eq _ _ _ _ _ hk] at this
          rw [this]
          beta_reduce
          rw [← add_sum_erase (range p.groups) _ (mem_range.mpr hk)]
          simp only [if_true]
          have e2 : ∑ og ∈ (range p.groups).erase k, xs (p.mm i) k og *
                (if og = k then a i else if og < k then f i og else old i og)
              = ∑ og ∈ (range p.groups).erase k, xs (p.mm i) k og * (if og < k then f i og else old i og) :=
            sum_congr rfl fun og hog => by rw [if_neg (mem_erase.mp hog).1]
          rw [e2]
          have e3 : ext.val i (bidx ext.angles n) (bidx ext.groups k) = sourceAt ext i n k := rfl
          rw [e3]; ring
      obtain ⟨x, j, _, _, hstep, hP, he, _⟩ := iterateE_spec (isotropicSweep p.cells p.angles
        (fun m => sigma m k) (fun m => xs m k k)
        (offScatter p.groups f old p.mm xs k) (ext.group (bidx ext.groups k))
        (bnd.group (bidx bnd.groups k)) p.mm p.dx p.angleX p.angleW p.bcL p.bcR false) p.convIn
        (fun a => ∀ i < p.cells, A i k (a i)) (fun a ha => by
          obtain ⟨b, hb1, hb2⟩ := sweepBound a ha
          exact ⟨b, hb1, fun i hi => hBA i hi k hk _ (hb2 i hi)⟩) 99 (fun i => old i k)
        (fun i hi => hold i hi k hk)
      obtain ⟨b, hb1, hb2⟩ := sweepBound (x j) (hP j (by omega))
      have hbx : b = x (j + 1) := by
        have := hstep j (le_refl _)
        rw [hb1] at this; exact Except.ok.inj this
      refine ⟨putCol f k (x (j + 1)), ?_, fun i hi g hg hgG => ?_⟩
      · unfold groupStepIso
        simp only [(hok k hk).slab, if_true]
        unfold isotropicSn
        rw [he]; rfl
      · unfold putCol
        by_cases hgk : g = k
        · subst hgk; rw [if_pos rfl, ← hbx]; exact hb2 i hi
        · rw [if_neg hgk]; exact hf i hi g (by omega) hgG)
  exact ⟨new, h1, fun i hi g hg => h2 i hi g hg hg⟩

/-- The same for the whole source iteration. -/
theorem sourceIteration_inv (hok : ∀ g < p.groups, SlabOk p sigma g) {ext bnd : Arr3 K} {A B : ℕ → ℕ → K → Prop}
    (hBA : ∀ i < p.cells, ∀ g < p.groups, ∀ v, B i g v → A i g v)
    (hS : ∀ f : ℕ → ℕ → K, (∀ i < p.cells, ∀ g < p.groups, A i g (f i g)) → ∀ k < p.groups, ∀ psi : ℕ → ℕ → K,
      AllBalanced p.cells p.angles p.angleX p.dx (fun i => sigma (p.mm i) k)
        (fun n i => (∑ g' ∈ range p.groups, xs (p.mm i) k g' * f i g') + sourceAt ext i n k) psi →
      SweptInflow p.cells p.angles p.angleX p.bcL p.bcR (fun n => sourceAt bnd 0 n k) (fun n => sourceAt bnd 1 n k)
        psi → ∀ i < p.cells, B i k (scalarCenter p.angles p.angleW psi i))
    {old : ℕ → ℕ → K} (hold : ∀ i < p.cells, ∀ g < p.groups, A i g (old i g)) {flux : ℕ → ℕ → K}
    (hrun : sourceIteration p sigma (.iso xs) ext bnd old = .ok flux) :
    ∀ i < p.cells, ∀ g < p.groups, B i g (flux i g) := by
  obtain ⟨x, s, hs1, _, hx0, hstep, he, _, _⟩ := C21_source_iteration_stops p sigma xs ext bnd old hok
  have key : ∀ j ≤ s, (∀ i < p.cells, ∀ g < p.groups, A i g (x j i g)) ∧
      (0 < j → ∀ i < p.cells, ∀ g < p.groups, B i g (x j i g)) := by
    intro j
    induction j with
    | zero => intro _; exact ⟨by rw [hx0]; exact hold, fun h => absurd h (lt_irrefl 0)⟩
    | succ j ih =>
      intro hj
      obtain ⟨new, h1, h2⟩ := oneSweep_inv hok hBA hS (ih (by omega)).1
      have : new = x (j + 1) := by
        have := hstep j (by omega)
        rw [h1] at this; exact Except.ok.inj this
      subst this
      exact ⟨fun i hi g hg => hBA i hi g hg _ (h2 i hi g hg), fun _ => h2⟩
  have : flux = x s := by rw [he] at hrun; exact (Except.ok.inj hrun).symm
  rw [this]
  exact (key s le_rfl).2 hs1

/-- Comparison of two angular fluxes of one group with the same inflow: if the sources differ by at most `d` and
`d ≤ theta w`, where `w` is the source of `e` (no inflow), the fluxes differ by at most `theta e`. -/
theorem swept_diff_absorbed (hok : SlabOk p sigma g) (hfine : ∀ n < p.angles,
      FineFor p.cells (p.angleX n) p.dx (fun i => sigma (p.mm i) g))
    {q q' w psi psi' e : ℕ → ℕ → K} {bL bR : ℕ → K} {theta : K}
    (h : AllBalanced p.cells p.angles p.angleX p.dx (fun i => sigma (p.mm i) g) q psi)
    (h' : AllBalanced p.cells p.angles p.angleX p.dx (fun i => sigma (p.mm i) g) q' psi')
    (he : AllBalanced p.cells p.angles p.angleX p.dx (fun i => sigma (p.mm i) g) w e)
    (hin : SweptInflow p.cells p.angles p.angleX p.bcL p.bcR bL bR psi)
    (hin' : SweptInflow p.cells p.angles p.angleX p.bcL p.bcR bL bR psi')
    (hine : SweptInflow p.cells p.angles p.angleX p.bcL p.bcR (fun _ => 0) (fun _ => 0) e)
    (hq : ∀ n < p.angles, ∀ i < p.cells, |q n i - q' n i| ≤ theta * w n i) :
    ∀ n < p.angles, ∀ i ≤ p.cells, |psi n i - psi' n i| ≤ theta * e n i := by
  have cmp : ∀ (a : K) , (∀ n < p.angles, ∀ i < p.cells, a * (q n i - q' n i) ≤ theta * w n i) →
      ∀ n < p.angles, ∀ i ≤ p.cells, a * (psi n i - psi' n i) ≤ theta * e n i := by
    intro a ha
    exact swept_mono (psi := fun n i => a * (psi n i - psi' n i)) (q := fun n i => a * (q n i - q' n i))
      (psi' := fun n i => theta * e n i) (q' := fun n i => theta * w n i)
      (bL := fun _ => 0) (bR := fun _ => 0) (bL' := fun _ => 0) (bR' := fun _ => 0)
      (bcL := p.bcL) (bcR := p.bcR) hok.nonzero hok.phys hfine
      (fun n hn i hi => by linear_combination a * h n hn i hi - a * h' n hn i hi)
      (fun n hn i hi => by linear_combination theta * he n hn i hi)
      (fun n hn => by
        have x := hin n hn
        have y := hin' n hn
        simp only [inflow, outflow] at x y ⊢
        split_ifs at x y ⊢ <;> linear_combination a * x - a * y)
      (fun n hn => by
        have x := hine n hn
        simp only [inflow, outflow] at x ⊢
        split_ifs at x ⊢ <;> linear_combination theta * x)
      ha (fun _ _ _ => le_refl _) (fun _ _ _ => le_refl _)
  intro n hn i hi
  refine abs_le.mpr ⟨?_, ?_⟩
  · have := cmp (-1) (fun n hn i hi => by rw [neg_one_mul]; exact (neg_le_abs _).trans (hq n hn i hi)) n hn i hi
    linarith
  · have := cmp 1 (fun n hn i hi => by rw [one_mul]; exact (le_abs_self _).trans (hq n hn i hi)) n hn i hi
    linarith

/-- Cell averages of edge fluxes. -/
def cellAverage (e : ℕ → ℕ → ℕ → K) (i n g : ℕ) : K := (e g n i + e g n (i + 1)) / 2

theorem average_abs_le {e e' : ℕ → ℕ → ℕ → K} {d : ℕ → ℕ → ℕ → K} {theta : K} {i n g : ℕ}
    (h0 : |e g n i - e' g n i| ≤ theta * d g n i) (h1 : |e g n (i + 1) - e' g n (i + 1)| ≤ theta * d g n (i + 1)) :
    |cellAverage e i n g - cellAverage e' i n g| ≤ theta * cellAverage d i n g := by
  unfold cellAverage
  have a := abs_le.mp h0
  have b := abs_le.mp h1
  rw [abs_le]
  constructor <;> linarith [a.1, a.2, b.1, b.2]

/-- A solution of the steady equations as a solution of the equations of one implicit step of a constant flux. -/
theorem steady_balanced {velocity : ℕ → K} {dt : K} {ext bnd : Arr3 K} {phi : ℕ → ℕ → K} {e : ℕ → ℕ → ℕ → K}
    (h : SolvesMultigroup p sigma xs ext bnd phi e) {g : ℕ} (hg : g < p.groups) :
    AllBalanced p.cells p.angles p.angleX p.dx (fun i => sigma (p.mm i) g + 1 / (velocity g * dt))
      (fun n i => (∑ g' ∈ range p.groups, xs (p.mm i) g g' * phi i g') + (sourceAt ext i n g
        + cellAverage e i n g / (velocity g * dt))) (e g) := by
  intro n hn i hi
  have x : _ = _ + sourceAt ext i n g := h.balance g hg n hn i hi
  simp only [cellAverage] at x ⊢
  linear_combination x

/-- C186, the contraction: let `(u, eu)` be the flux of a source `q` without inflow.  If the secondaries of `u` and the
flux kept from the previous step amount to at most `theta` times the whole source of `u` (they do, for some
`theta < 1`, if `q` is positive), then with constant data and a steady solution `(phi, e)` the distance of backward
Euler's flux from the steady flux shrinks by `theta` in every time step. -/
theorem C186_relaxes (p : Problem K) (xsTotal : ℕ → ℕ → K) (scatter : ℕ → ℕ → ℕ → K)
    (fission : Fission K) (velocity : ℕ → K) (external boundary : TimeArr K) (steps : ℕ) (dt : K)
    (init : ℕ → ℕ → ℕ → K) (hok : TimedOk p xsTotal velocity dt) (hG : 0 < p.groups)
    (hext : Covers external steps) (hbnd : Covers boundary steps)
    (ht : Tame p (fun m g => xsTotal m g + 1 / (velocity g * dt))
      (fun m g g' => scatter m g g' + fissionMatrix fission m g g'))
    (ext bnd : Arr3 K)
    (hce : ∀ j < steps, ∀ i < p.cells, ∀ n < p.angles, ∀ g < p.groups,
      sourceAt (entry external j) i n g = sourceAt ext i n g)
    (hcb : ∀ j < steps, ∀ s < 2, ∀ n < p.angles, ∀ g < p.groups,
      sourceAt (entry boundary j) s n g = sourceAt bnd s n g)
    (phi : ℕ → ℕ → K) (e : ℕ → ℕ → ℕ → K)
    (hsol : SolvesMultigroup p xsTotal (fun m g g' => scatter m g g' + fissionMatrix fission m g g') ext bnd phi e)
    (q : Arr3 K) (u : ℕ → ℕ → K) (eu : ℕ → ℕ → ℕ → K)
    (hu : SolvesMultigroup p xsTotal (fun m g g' => scatter m g g' + fissionMatrix fission m g g') q zeroBoundary u eu)
    (hun : ∀ i < p.cells, ∀ g < p.groups, 0 ≤ u i g) (theta : K) (hth0 : 0 ≤ theta) (hth1 : theta ≤ 1)
    (hth : ∀ i < p.cells, ∀ n < p.angles, ∀ g < p.groups,
      (∑ g' ∈ range p.groups, (scatter (p.mm i) g g' + fissionMatrix fission (p.mm i) g g') * u i g')
          + cellAverage eu i n g / (velocity g * dt)
        ≤ theta * ((∑ g' ∈ range p.groups, (scatter (p.mm i) g g' + fissionMatrix fission (p.mm i) g g') * u i g')
          + cellAverage eu i n g / (velocity g * dt) + sourceAt q i n g))
    (M : K) (hM : 0 ≤ M)
    (hinit : ∀ i < p.cells, ∀ n < p.angles, ∀ g < p.groups,
      |init i n g - cellAverage e i n g| ≤ M * cellAverage eu i n g) :
    ∃ out, backwardEuler p xsTotal (.iso scatter) fission velocity external boundary steps dt init = .ok out ∧
      ∀ j < steps, ∀ i < p.cells, ∀ g < p.groups, |out j i g - phi i g| ≤ theta ^ (j + 1) * M * u i g := by
  obtain ⟨out, psi, hrun, hpsi0, hstep, hsi, _⟩ := C32_backward_euler p xsTotal scatter fission velocity
    external boundary steps dt init hok hG hext hbnd
  refine ⟨out, hrun, ?_⟩
  obtain ⟨xs, hxs⟩ : ∃ xs : ℕ → ℕ → ℕ → K, xs = fun m g g' => scatter m g g' + fissionMatrix fission m g g' := ⟨_, rfl⟩
  rw [← hxs] at ht hsol hu
  simp only [← hxs] at hstep hsi
  replace hth : ∀ i < p.cells, ∀ n < p.angles, ∀ g < p.groups,
      (∑ g' ∈ range p.groups, xs (p.mm i) g g' * u i g') + cellAverage eu i n g / (velocity g * dt)
        ≤ theta * ((∑ g' ∈ range p.groups, xs (p.mm i) g g' * u i g')
          + cellAverage eu i n g / (velocity g * dt) + sourceAt q i n g) := by rw [hxs]; exact hth
  have hv : ∀ g < p.groups, 0 < velocity g * dt := fun g hg => mul_pos (hok.velocity g hg) hok.dt
  -- one transport sweep
  have sweep : ∀ m : K, 0 ≤ m → ∀ j < steps, (∀ i < p.cells, ∀ n < p.angles, ∀ g < p.groups,
        |psi j i n g - cellAverage e i n g| ≤ m * cellAverage eu i n g) →
      ∀ f : ℕ → ℕ → K, (∀ i < p.cells, ∀ g < p.groups, |f i g - phi i g| ≤ m * u i g) →
      ∀ g < p.groups, ∀ psi' : ℕ → ℕ → K,
      AllBalanced p.cells p.angles p.angleX p.dx (fun i => xsTotal (p.mm i) g + 1 / (velocity g * dt))
        (fun n i => (∑ g' ∈ range p.groups, xs (p.mm i) g g' * f i g')
          + (sourceAt (entry external j) i n g + psi j i n g / (velocity g * dt))) psi' →
      SweptInflow p.cells p.angles p.angleX p.bcL p.bcR (fun n => sourceAt (entry boundary j) 0 n g)
        (fun n => sourceAt (entry boundary j) 1 n g) psi' →
      ∀ n < p.angles, ∀ i ≤ p.cells, |psi' n i - e g n i| ≤ theta * m * eu g n i := by
    intro m hm j hj hpsi f hf g hg psi' hb hi'
    have hin : SweptInflow p.cells p.angles p.angleX p.bcL p.bcR (fun n => sourceAt bnd 0 n g)
        (fun n => sourceAt bnd 1 n g) psi' := by
      intro n hn
      have x := hi' n hn
      have b0 := hcb j hj 0 (by norm_num) n hn g hg
      have b1 := hcb j hj 1 (by norm_num) n hn g hg
      simp only [b0, b1] at x
      exact x
    refine swept_diff_absorbed (sigma := fun m g => xsTotal m g + 1 / (velocity g * dt)) (ht.ok g hg) (ht.fine g hg)
      hb (steady_balanced hsol hg)
      (w := fun n i => (∑ g' ∈ range p.groups, xs (p.mm i) g g' * u i g') + (sourceAt q i n g
        + cellAverage eu i n g / (velocity g * dt)))
      (steady_balanced hu hg) hin (hsol.inflow g hg) (hu.inflow g hg) (fun n hn i hi => ?_)
    beta_reduce
    rw [hce j hj i hi n hn g hg]
    have e1 : (∑ g' ∈ range p.groups, xs (p.mm i) g g' * f i g')
          + (sourceAt ext i n g + psi j i n g / (velocity g * dt))
        - ((∑ g' ∈ range p.groups, xs (p.mm i) g g' * phi i g')
          + (sourceAt ext i n g + cellAverage e i n g / (velocity g * dt)))
        = (∑ g' ∈ range p.groups, xs (p.mm i) g g' * (f i g' - phi i g'))
          + (psi j i n g - cellAverage e i n g) / (velocity g * dt) := by
      simp only [mul_sub, sum_sub_distrib]; ring
    rw [e1]
    have h1 := secondaries_le (v := fun i g => f i g - phi i g) ht.nonneg hi hg (M := m) (u := u)
      (fun g' hg' => hf i hi g' hg')
    have h2 : |(psi j i n g - cellAverage e i n g) / (velocity g * dt)|
        ≤ m * (cellAverage eu i n g / (velocity g * dt)) := by
      rw [abs_div, abs_of_pos (hv g hg), ← mul_div_assoc]
      exact div_le_div_of_nonneg_right (hpsi i hi n hn g hg) (hv g hg).le
    have h3 := mul_le_mul_of_nonneg_left (hth i hi n hn g hg) hm
    refine (abs_add_le _ _).trans ?_
    linarith
  have scalarBound : ∀ m : K, ∀ g < p.groups, ∀ psi' : ℕ → ℕ → K,
      (∀ n < p.angles, ∀ i ≤ p.cells, |psi' n i - e g n i| ≤ theta * m * eu g n i) →
      ∀ i < p.cells, |scalarCenter p.angles p.angleW psi' i - phi i g| ≤ theta * m * u i g := by
    intro m g hg psi' h i hi
    rw [hsol.scalar g hg i hi, hu.scalar g hg i hi]
    unfold scalarCenter
    rw [← sum_sub_distrib, mul_sum]
    refine (abs_sum_le_sum_abs _ _).trans (sum_le_sum fun n hn => ?_)
    have hn := mem_range.mp hn
    have a := average_abs_le (e := fun _ => psi') (e' := e) (d := eu) (h n hn i hi.le) (h n hn (i + 1) hi)
    unfold cellAverage at a
    have e2 : p.angleW n * ((psi' n i + psi' n (i + 1)) / 2) - p.angleW n * ((e g n i + e g n (i + 1)) / 2)
        = p.angleW n * ((psi' n i + psi' n (i + 1)) / 2 - (e g n i + e g n (i + 1)) / 2) := by ring
    rw [e2, abs_mul, abs_of_nonneg (ht.weights n hn)]
    have b := mul_le_mul_of_nonneg_left a (ht.weights n hn)
    linarith
  have key : ∀ j ≤ steps, (∀ i < p.cells, ∀ n < p.angles, ∀ g < p.groups,
        |psi j i n g - cellAverage e i n g| ≤ theta ^ j * M * cellAverage eu i n g) ∧
      (∀ i < p.cells, ∀ g < p.groups,
        |(if j = 0 then quadrature p init else out (j - 1)) i g - phi i g| ≤ theta ^ j * M * u i g) := by
    intro j
    induction j with
    | zero =>
      intro _
      refine ⟨fun i hi n hn g hg => by rw [hpsi0, pow_zero, one_mul]; exact hinit i hi n hn g hg,
        fun i hi g hg => ?_⟩
      rw [if_pos rfl, pow_zero, one_mul, hsol.scalar g hg i hi, hu.scalar g hg i hi]
      unfold quadrature scalarCenter
      rw [← sum_sub_distrib, mul_sum]
      refine (abs_sum_le_sum_abs _ _).trans (sum_le_sum fun n hn => ?_)
      have hn := mem_range.mp hn
      have a := hinit i hi n hn g hg
      unfold cellAverage at a
      rw [← mul_sub, abs_mul, abs_of_nonneg (ht.weights n hn)]
      have b := mul_le_mul_of_nonneg_left a (ht.weights n hn)
      linarith
    | succ j ih =>
      intro hj
      have hj : j < steps := hj
      obtain ⟨hpsi, hguess⟩ := ih hj.le
      have hm : 0 ≤ theta ^ j * M := mul_nonneg (pow_nonneg hth0 j) hM
      have hout : ∀ i < p.cells, ∀ g < p.groups, |out j i g - phi i g| ≤ theta * (theta ^ j * M) * u i g := by
        refine sourceIteration_inv (A := fun i g v => |v - phi i g| ≤ theta ^ j * M * u i g)
          (B := fun i g v => |v - phi i g| ≤ theta * (theta ^ j * M) * u i g) ht.ok
          (fun i hi g hg v hv => hv.trans (mul_le_mul_of_nonneg_right (mul_le_of_le_one_left hm hth1) (hun i hi g hg)))
          (fun f hf k hk psi' hb hi' => ?_) hguess (hsi j hj)
        refine scalarBound _ k hk psi' (sweep _ hm j hj hpsi f hf k hk psi' (fun n hn i hi => ?_) hi')
        have x := hb n hn i hi
        beta_reduce at x ⊢
        rw [sourceAt_full _ hn hk] at x
        exact x
      have e3 : theta ^ (j + 1) * M = theta * (theta ^ j * M) := by rw [pow_succ]; ring
      rw [e3]
      refine ⟨fun i hi n hn g hg => ?_, fun i hi g hg => by
        rw [if_neg (Nat.succ_ne_zero j), Nat.add_sub_cancel]; exact hout i hi g hg⟩
      obtain ⟨e', he'⟩ := implicit_balanced (hstep j hj)
      -- the angular flux belongs to the old flux or the new one: both are within the bound
      have hs := sweep _ hm j hj hpsi (out j) (fun i hi g hg => (hout i hi g hg).trans
        (mul_le_mul_of_nonneg_right (mul_le_of_le_one_left hm hth1) (hun i hi g hg))) g hg (e' g)
        (he' g hg).2.1 (he' g hg).2.2
      have a := average_abs_le (e := e') (e' := e) (d := eu) (hs n hn i hi.le) (hs n hn (i + 1) hi)
      rw [(he' g hg).1 n hn i hi]
      exact a
  intro j hj i hi g hg
  have := (key (j + 1) hj).2 i hi g hg
  rw [if_neg (Nat.succ_ne_zero j), Nat.add_sub_cancel] at this
  exact this

/-- The mesh that is fine for `sigma + 1/(v dt)` is fine for `sigma`. -/
theorem tame_steady {velocity : ℕ → K} {dt : K} (hok : TimedOk p sigma velocity dt)
    (ht : Tame p (fun m g => sigma m g + 1 / (velocity g * dt)) xs) : Tame p sigma xs :=
  ⟨hok.ok, fun g hg n hn i hi => by
    have h1 := ht.fine g hg n hn i hi
    have h2 := ((hok.ok g hg).phys i hi).1
    have h3 : 0 ≤ 1 / (velocity g * dt) * p.dx i :=
      mul_nonneg (one_div_nonneg.mpr (mul_pos (hok.velocity g hg) hok.dt).le) h2.le
    beta_reduce at h1 ⊢
    linarith, ht.weights, ht.norm, ht.nonneg⟩

/-- The angular fluxes of a positive source are positive on average. -/
theorem average_pos (ht : Tame p sigma xs) {q : Arr3 K} {u : ℕ → ℕ → K} {eu : ℕ → ℕ → ℕ → K}
    (hu : SolvesMultigroup p sigma xs q zeroBoundary u eu) (hun : ∀ i < p.cells, ∀ g < p.groups, 0 ≤ u i g)
    (hq : ∀ i < p.cells, ∀ n < p.angles, ∀ g < p.groups, 0 < sourceAt q i n g) :
    ∀ i < p.cells, ∀ n < p.angles, ∀ g < p.groups, 0 < cellAverage eu i n g := by
  intro i hi n hn g hg
  have hsec : ∀ i < p.cells, 0 ≤ ∑ g' ∈ range p.groups, xs (p.mm i) g g' * u i g' := fun i hi =>
    sum_nonneg fun g' hg' => mul_nonneg (ht.nonneg i hi g hg g' (mem_range.mp hg')) (hun i hi g' (mem_range.mp hg'))
  have hnn := swept_nonneg (ht.ok g hg).nonzero (ht.ok g hg).phys (ht.fine g hg) (hu.balance g hg) (hu.inflow g hg)
    (fun n hn i hi => add_nonneg (hsec i hi) (hq i hi n hn g hg).le) (fun _ _ _ => le_refl (0 : K))
    (fun _ _ _ => le_refl (0 : K))
  have a := hnn n hn i hi.le
  have b := hnn n hn (i + 1) hi
  unfold cellAverage
  rcases (add_nonneg a b).eq_or_lt with h | h
  · exfalso
    have ha : eu g n i = 0 := by linarith
    have hb : eu g n (i + 1) = 0 := by linarith
    have x : _ = _ + sourceAt q i n g := hu.balance g hg n hn i hi
    rw [ha, hb] at x
    have hq' := hq i hi n hn g hg
    have hs' := hsec i hi
    simp only [sub_zero, mul_zero, zero_div, add_zero] at x
    linarith
  · exact half_pos h

/-- A positive source makes the relaxation factor smaller than one. -/
theorem relax_factor (ht : Tame p sigma xs) (hN : 0 < p.cells) (hA : 0 < p.angles) (hG : 0 < p.groups) {q : Arr3 K}
    {u : ℕ → ℕ → K} {eu : ℕ → ℕ → ℕ → K} (hu : SolvesMultigroup p sigma xs q zeroBoundary u eu)
    (hun : ∀ i < p.cells, ∀ g < p.groups, 0 ≤ u i g)
    (hq : ∀ i < p.cells, ∀ n < p.angles, ∀ g < p.groups, 0 < sourceAt q i n g) {velocity : ℕ → K} {dt : K}
    (hv : ∀ g < p.groups, 0 < velocity g * dt) :
    ∃ theta : K, 0 ≤ theta ∧ theta < 1 ∧ ∀ i < p.cells, ∀ n < p.angles, ∀ g < p.groups,
      (∑ g' ∈ range p.groups, xs (p.mm i) g g' * u i g') + cellAverage eu i n g / (velocity g * dt)
        ≤ theta * ((∑ g' ∈ range p.groups, xs (p.mm i) g g' * u i g')
          + cellAverage eu i n g / (velocity g * dt) + sourceAt q i n g) := by
  obtain ⟨w, hw⟩ : ∃ w : ℕ → ℕ → ℕ → K, w = fun i n g => (∑ g' ∈ range p.groups, xs (p.mm i) g g' * u i g')
    + cellAverage eu i n g / (velocity g * dt) := ⟨_, rfl⟩
  have hw0 : ∀ i < p.cells, ∀ n < p.angles, ∀ g < p.groups, 0 ≤ w i n g := fun i hi n hn g hg => by
    rw [hw]
    exact add_nonneg (sum_nonneg fun g' hg' => mul_nonneg (ht.nonneg i hi g hg g' (mem_range.mp hg'))
      (hun i hi g' (mem_range.mp hg'))) (div_nonneg (average_pos ht hu hun hq i hi n hn g hg).le (hv g hg).le)
  obtain ⟨m, hm, hmax⟩ := (range p.cells ×ˢ range p.angles ×ˢ range p.groups).exists_max_image
    (fun a => w a.1 a.2.1 a.2.2 / (w a.1 a.2.1 a.2.2 + sourceAt q a.1 a.2.1 a.2.2)) ⟨(0, 0, 0), by simp [hN, hG, hA]⟩
  have hm1 := mem_range.mp (mem_product.mp hm).1
  have hm2 := mem_range.mp (mem_product.mp (mem_product.mp hm).2).1
  have hm3 := mem_range.mp (mem_product.mp (mem_product.mp hm).2).2
  have hpos : ∀ i < p.cells, ∀ n < p.angles, ∀ g < p.groups, 0 < w i n g + sourceAt q i n g := fun i hi n hn g hg =>
    add_pos_of_nonneg_of_pos (hw0 i hi n hn g hg) (hq i hi n hn g hg)
  refine ⟨_, div_nonneg (hw0 _ hm1 _ hm2 _ hm3) (hpos _ hm1 _ hm2 _ hm3).le, ?_, fun i hi n hn g hg => ?_⟩
  · rw [div_lt_one (hpos _ hm1 _ hm2 _ hm3)]
    linarith [hq _ hm1 _ hm2 _ hm3]
  · have := (div_le_iff₀ (hpos i hi n hn g hg)).mp (hmax (i, n, g) (by simp [hi, hn, hg]))
    rw [hw] at this ⊢
    exact this

/-- C186: if some positive source has a non-negative steady flux (so: in all subcritical systems), backward Euler with
constant data relaxes geometrically to the steady state, from every initial flux: there are `theta < 1` and a positive
flux `u`, depending only on the system and the step, such that the flux returned for step `j` is within
`theta^(j+1) M u` of the steady flux, `M` depending only on the initial flux. -/
theorem C186_steady_state_attracts (p : Problem K) (xsTotal : ℕ → ℕ → K) (scatter : ℕ → ℕ → ℕ → K)
    (fission : Fission K) (velocity : ℕ → K) (dt : K) (hok : TimedOk p xsTotal velocity dt) (hN : 0 < p.cells)
    (hG : 0 < p.groups)
    (ht : Tame p (fun m g => xsTotal m g + 1 / (velocity g * dt))
      (fun m g g' => scatter m g g' + fissionMatrix fission m g g'))
    (q : Arr3 K) (hq : ∀ i < p.cells, ∀ n < p.angles, ∀ g < p.groups, 0 < sourceAt q i n g)
    (hsteady : ∃ u eu, SolvesMultigroup p xsTotal (fun m g g' => scatter m g g' + fissionMatrix fission m g g') q
      zeroBoundary u eu ∧ ∀ i < p.cells, ∀ g < p.groups, 0 ≤ u i g) :
    ∃ (theta : K) (u : ℕ → ℕ → K), 0 ≤ theta ∧ theta < 1 ∧ (∀ i < p.cells, ∀ g < p.groups, 0 < u i g) ∧
      ∀ ext bnd : Arr3 K, ∃ phi e, SolvesMultigroup p xsTotal
          (fun m g g' => scatter m g g' + fissionMatrix fission m g g') ext bnd phi e ∧
        ∀ init : ℕ → ℕ → ℕ → K, ∃ M : K, 0 ≤ M ∧ ∀ steps : ℕ, ∃ out,
          backwardEuler p xsTotal (.iso scatter) fission velocity ⟨1, fun _ => ext⟩ ⟨1, fun _ => bnd⟩ steps dt init
            = .ok out ∧
          ∀ j < steps, ∀ i < p.cells, ∀ g < p.groups, |out j i g - phi i g| ≤ theta ^ (j + 1) * M * u i g := by
  obtain ⟨u, eu, hu, hun⟩ := hsteady
  have ht0 := tame_steady hok ht
  have hA : 0 < p.angles := lt_trans zero_lt_one hok.angles
  obtain ⟨theta, hth0, hth1, hth⟩ := relax_factor ht0 hN hA hG hu hun hq (velocity := velocity) (dt := dt)
    (fun g hg => mul_pos (hok.velocity g hg) hok.dt)
  obtain ⟨r, e', hr0, hr1, hd⟩ := damps_of_solution ht0 hN hG hu hun hq
    (fun _ _ _ _ _ => le_refl (0 : K)) (fun _ _ _ _ _ => le_refl (0 : K))
  have hU := average_pos ht0 hu hun hq
  refine ⟨theta, u, hth0, hth1, hd.pos, fun ext bnd => ?_⟩
  obtain ⟨phi, e, hsol⟩ := hd.exists ht0 hr1 ext bnd
  refine ⟨phi, e, hsol, fun init => ?_⟩
  obtain ⟨m, hm, hmax⟩ := (range p.cells ×ˢ range p.angles ×ˢ range p.groups).exists_max_image
    (fun a => |init a.1 a.2.1 a.2.2 - cellAverage e a.1 a.2.1 a.2.2| / cellAverage eu a.1 a.2.1 a.2.2)
    ⟨(0, 0, 0), by simp [hN, hG, hA]⟩
  have hm1 := mem_range.mp (mem_product.mp hm).1
  have hm2 := mem_range.mp (mem_product.mp (mem_product.mp hm).2).1
  have hm3 := mem_range.mp (mem_product.mp (mem_product.mp hm).2).2
  obtain ⟨M, hMd⟩ : ∃ M, M = |init m.1 m.2.1 m.2.2 - cellAverage e m.1 m.2.1 m.2.2| / cellAverage eu m.1 m.2.1 m.2.2 :=
    ⟨_, rfl⟩
  have hM0 : 0 ≤ M := by rw [hMd]; exact div_nonneg (abs_nonneg _) (hU _ hm1 _ hm2 _ hm3).le
  refine ⟨M, hM0, fun steps => ?_⟩
  exact C186_relaxes p xsTotal scatter fission velocity ⟨1, fun _ => ext⟩ ⟨1, fun _ => bnd⟩ steps dt init hok hG
    (Or.inl rfl) (Or.inl rfl) ht ext bnd (fun _ _ _ _ _ _ _ _ => rfl) (fun _ _ _ _ _ _ _ _ => rfl) phi e hsol q u eu
    hu hun theta hth0 hth1.le hth M hM0 fun i hi n hn g hg => by
      have := hmax (i, n, g) (by simp [hi, hn, hg])
      rw [← hMd] at this
      exact (div_le_iff₀ (hU i hi n hn g hg)).mp this

/-- C186 with the multiplication factor: a subcritical system (`k < 1`) forgets every initial flux; without any source
its flux dies out (`phi = 0` is the steady state). -/
theorem C186_subcritical_relaxes (p : Problem K) (xsTotal : ℕ → ℕ → K) (scatter : ℕ → ℕ → ℕ → K)
    (fission : Fission K) (velocity : ℕ → K) (dt c : K) (hok : TimedOk p xsTotal velocity dt) (hN : 0 < p.cells)
    (hG : 0 < p.groups) (hc1 : c < 1) (hcon : Contractive p xsTotal scatter c)
    (hF : EmissionNonneg p (fissionMatrix fission))
    (hfine : ∀ g < p.groups, ∀ n < p.angles,
      FineFor p.cells (p.angleX n) p.dx (fun i => xsTotal (p.mm i) g + 1 / (velocity g * dt)))
    (mode : ℕ → ℕ → K) (k : K) (psi : ℕ → ℕ → ℕ → K) (hk : 0 < k) (hk1 : k < 1)
    (h : KEigenpair p xsTotal scatter (fissionMatrix fission) mode k psi)
    (hpos : ∀ i < p.cells, ∀ g < p.groups, 0 < mode i g) :
    ∃ (theta : K) (u : ℕ → ℕ → K), 0 ≤ theta ∧ theta < 1 ∧ (∀ i < p.cells, ∀ g < p.groups, 0 < u i g) ∧
      ∀ ext bnd : Arr3 K, ∃ phi e, SolvesMultigroup p xsTotal
          (fun m g g' => scatter m g g' + fissionMatrix fission m g g') ext bnd phi e ∧
        ∀ init : ℕ → ℕ → ℕ → K, ∃ M : K, 0 ≤ M ∧ ∀ steps : ℕ, ∃ out,
          backwardEuler p xsTotal (.iso scatter) fission velocity ⟨1, fun _ => ext⟩ ⟨1, fun _ => bnd⟩ steps dt init
            = .ok out ∧
          ∀ j < steps, ∀ i < p.cells, ∀ g < p.groups, |out j i g - phi i g| ≤ theta ^ (j + 1) * M * u i g := by
  have ht0 := tame_with_fission hcon hF
  exact C186_steady_state_attracts p xsTotal scatter fission velocity dt hok hN hG
    ⟨fun g hg => xsStar_ok hok (zero_le_one (α := K)) g hg, hfine, hcon.weights, hcon.norm, ht0.nonneg⟩
    ⟨p.angles, p.groups, fun _ _ _ => 1⟩
    (fun i _ n hn g hg => by rw [sourceAt_full _ hn hg]; exact zero_lt_one)
    (subcritical_unit hc1 hcon hF hN hG hk hk1 h hpos)

/-- C186, otherwise: in a critical or supercritical system (`k ≥ 1`) a flux that starts at least as large as `m` times
the positive mode never dies out: with non-negative sources it is at least `rho^(j+1) m` times the mode after step `j`,
for every `rho ≥ 1` that the fission source of the mode allows (`rho = 1` always; `rho > 1` if `k > 1` and there is
fission in every cell and group). -/
theorem C186_supercritical_grows (p : Problem K) (xsTotal : ℕ → ℕ → K) (scatter : ℕ → ℕ → ℕ → K)
    (fission : Fission K) (velocity : ℕ → K) (external boundary : TimeArr K) (steps : ℕ) (dt : K)
    (init : ℕ → ℕ → ℕ → K) (hok : TimedOk p xsTotal velocity dt) (hG : 0 < p.groups)
    (hext : Covers external steps) (hbnd : Covers boundary steps)
    (ht : Tame p (fun m g => xsTotal m g + 1 / (velocity g * dt))
      (fun m g g' => scatter m g g' + fissionMatrix fission m g g'))
    (hpe : ∀ j < steps, ∀ i < p.cells, ∀ n < p.angles, ∀ g < p.groups, 0 ≤ sourceAt (entry external j) i n g)
    (hpb : ∀ j < steps, ∀ s < 2, ∀ n < p.angles, ∀ g < p.groups, 0 ≤ sourceAt (entry boundary j) s n g)
    (mode : ℕ → ℕ → K) (k : K) (psi0 : ℕ → ℕ → ℕ → K)
    (h : KEigenpair p xsTotal scatter (fissionMatrix fission) mode k psi0)
    (hpos : ∀ i < p.cells, ∀ g < p.groups, 0 ≤ mode i g) (rho : K) (hrho : 1 ≤ rho)
    (hgrow : ∀ i < p.cells, ∀ n < p.angles, ∀ g < p.groups,
      rho * ((∑ g' ∈ range p.groups, scatter (p.mm i) g g' * mode i g')
          + (∑ g' ∈ range p.groups, fissionMatrix fission (p.mm i) g g' * mode i g') / k
          + cellAverage psi0 i n g / (velocity g * dt))
        ≤ (∑ g' ∈ range p.groups, scatter (p.mm i) g g' * mode i g')
          + (∑ g' ∈ range p.groups, fissionMatrix fission (p.mm i) g g' * mode i g')
          + cellAverage psi0 i n g / (velocity g * dt))
    (m : K) (hm : 0 ≤ m)
    (hinit : ∀ i < p.cells, ∀ n < p.angles, ∀ g < p.groups, m * cellAverage psi0 i n g ≤ init i n g) :
    ∃ out, backwardEuler p xsTotal (.iso scatter) fission velocity external boundary steps dt init = .ok out ∧
      ∀ j < steps, ∀ i < p.cells, ∀ g < p.groups, rho ^ (j + 1) * m * mode i g ≤ out j i g := by
  obtain ⟨out, psi, hrun, hpsi0, hstep, hsi, _⟩ := C32_backward_euler p xsTotal scatter fission velocity
    external boundary steps dt init hok hG hext hbnd
  refine ⟨out, hrun, ?_⟩
  obtain ⟨xs, hxs⟩ : ∃ xs : ℕ → ℕ → ℕ → K, xs = fun m g g' => scatter m g g' + fissionMatrix fission m g g' := ⟨_, rfl⟩
  rw [← hxs] at ht
  simp only [← hxs] at hstep hsi
  have hsplit : ∀ i g, ∑ g' ∈ range p.groups, xs (p.mm i) g g' * mode i g'
      = (∑ g' ∈ range p.groups, scatter (p.mm i) g g' * mode i g')
          + (∑ g' ∈ range p.groups, fissionMatrix fission (p.mm i) g g' * mode i g') := fun i g => by
    rw [hxs, ← sum_add_distrib]; exact sum_congr rfl fun _ _ => by ring
  have hv : ∀ g < p.groups, 0 < velocity g * dt := fun g hg => mul_pos (hok.velocity g hg) hok.dt
  have sweep : ∀ a : K, 0 ≤ a → ∀ j < steps, (∀ i < p.cells, ∀ n < p.angles, ∀ g < p.groups,
        a * cellAverage psi0 i n g ≤ psi j i n g) →
      ∀ f : ℕ → ℕ → K, (∀ i < p.cells, ∀ g < p.groups, a * mode i g ≤ f i g) →
      ∀ g < p.groups, ∀ psi' : ℕ → ℕ → K,
      AllBalanced p.cells p.angles p.angleX p.dx (fun i => xsTotal (p.mm i) g + 1 / (velocity g * dt))
        (fun n i => (∑ g' ∈ range p.groups, xs (p.mm i) g g' * f i g')
          + (sourceAt (entry external j) i n g + psi j i n g / (velocity g * dt))) psi' →
      SweptInflow p.cells p.angles p.angleX p.bcL p.bcR (fun n => sourceAt (entry boundary j) 0 n g)
        (fun n => sourceAt (entry boundary j) 1 n g) psi' →
      ∀ n < p.angles, ∀ i ≤ p.cells, rho * a * psi0 g n i ≤ psi' n i := by
    intro a ha j hj hpsi f hf g hg psi' hb hi'
    refine swept_mono (psi := fun n i => rho * a * psi0 g n i)
      (q := fun n i => rho * a * ((∑ g' ∈ range p.groups, scatter (p.mm i) g g' * mode i g')
          + (∑ g' ∈ range p.groups, fissionMatrix fission (p.mm i) g g' * mode i g') / k
          + cellAverage psi0 i n g / (velocity g * dt)))
      (bL := fun _ => 0) (bR := fun _ => 0) (bcL := p.bcL) (bcR := p.bcR)
      (ht.ok g hg).nonzero (ht.ok g hg).phys (ht.fine g hg) (fun n hn i hi => ?_) hb (fun n hn => ?_) hi'
      (fun n hn i hi => ?_) (fun n hn _ => hpb j hj 0 (by norm_num) n hn g hg)
      (fun n hn _ => hpb j hj 1 (by norm_num) n hn g hg)
    · have x := h.balance g hg n hn i hi
      simp only [cellAverage]
      linear_combination rho * a * x
    · have x := h.inflow g hg n hn
      simp only [inflow, outflow] at x ⊢
      split_ifs at x ⊢ <;> linear_combination rho * a * x
    · have h1 : a * ∑ g' ∈ range p.groups, xs (p.mm i) g g' * mode i g'
          ≤ ∑ g' ∈ range p.groups, xs (p.mm i) g g' * f i g' := by
        rw [mul_sum]
        refine sum_le_sum fun g' hg' => ?_
        have hg' := mem_range.mp hg'
        have := mul_le_mul_of_nonneg_left (hf i hi g' hg') (ht.nonneg i hi g hg g' hg')
        linarith
      have h2 : a * (cellAverage psi0 i n g / (velocity g * dt)) ≤ psi j i n g / (velocity g * dt) := by
        rw [← mul_div_assoc]
        exact div_le_div_of_nonneg_right (hpsi i hi n hn g hg) (hv g hg).le
      have h3 := mul_le_mul_of_nonneg_left (hgrow i hi n hn g hg) ha
      have h4 := hpe j hj i hi n hn g hg
      rw [hsplit] at h1
      beta_reduce
      linarith
  have scalarBound : ∀ a : K, ∀ g < p.groups, ∀ psi' : ℕ → ℕ → K,
      (∀ n < p.angles, ∀ i ≤ p.cells, a * psi0 g n i ≤ psi' n i) →
      ∀ i < p.cells, a * mode i g ≤ scalarCenter p.angles p.angleW psi' i := by
    intro a g hg psi' hb i hi
    rw [h.scalar g hg i hi]
    unfold scalarCenter
    rw [mul_sum]
    refine sum_le_sum fun n hn => ?_
    have hn := mem_range.mp hn
    have h0 := hb n hn i hi.le
    have h1 := hb n hn (i + 1) hi
    have := mul_le_mul_of_nonneg_left (a := p.angleW n) (b := a * ((psi0 g n i + psi0 g n (i + 1)) / 2))
      (c := (psi' n i + psi' n (i + 1)) / 2) (by linarith) (ht.weights n hn)
    linarith
  have hr0 : 0 ≤ rho := zero_le_one.trans hrho
  have key : ∀ j ≤ steps, (∀ i < p.cells, ∀ n < p.angles, ∀ g < p.groups,
        rho ^ j * m * cellAverage psi0 i n g ≤ psi j i n g) ∧
      (∀ i < p.cells, ∀ g < p.groups,
        rho ^ j * m * mode i g ≤ (if j = 0 then quadrature p init else out (j - 1)) i g) := by
    intro j
    induction j with
    | zero =>
      intro _
      refine ⟨fun i hi n hn g hg => by rw [hpsi0, pow_zero, one_mul]; exact hinit i hi n hn g hg,
        fun i hi g hg => ?_⟩
      rw [if_pos rfl, pow_zero, one_mul, h.scalar g hg i hi]
      unfold quadrature
      rw [mul_sum]
      refine sum_le_sum fun n hn => ?_
      have hn := mem_range.mp hn
      have a := hinit i hi n hn g hg
      unfold cellAverage at a
      have b := mul_le_mul_of_nonneg_left a (ht.weights n hn)
      linarith
    | succ j ih =>
      intro hj
      have hj : j < steps := hj
      obtain ⟨hpsi, hguess⟩ := ih hj.le
      have hmj : 0 ≤ rho ^ j * m := mul_nonneg (pow_nonneg hr0 j) hm
      have hBA : ∀ i < p.cells, ∀ g < p.groups, rho ^ j * m * mode i g ≤ rho * (rho ^ j * m) * mode i g :=
        fun i hi g hg => mul_le_mul_of_nonneg_right (le_mul_of_one_le_left hmj hrho) (hpos i hi g hg)
      have hout : ∀ i < p.cells, ∀ g < p.groups, rho * (rho ^ j * m) * mode i g ≤ out j i g := by
        refine sourceIteration_inv (A := fun i g v => rho ^ j * m * mode i g ≤ v)
          (B := fun i g v => rho * (rho ^ j * m) * mode i g ≤ v) ht.ok
          (fun i hi g hg v hv => (hBA i hi g hg).trans hv)
          (fun f hf k hk psi' hb hi' => ?_) hguess (hsi j hj)
        refine scalarBound _ k hk psi' (sweep _ hmj j hj hpsi f hf k hk psi' (fun n hn i hi => ?_) hi')
        have x := hb n hn i hi
        beta_reduce at x ⊢
        rw [sourceAt_full _ hn hk] at x
        exact x
      have e3 : rho ^ (j + 1) * m = rho * (rho ^ j * m) := by rw [pow_succ]; ring
      rw [e3]
      refine ⟨fun i hi n hn g hg => ?_, fun i hi g hg => by
        rw [if_neg (Nat.succ_ne_zero j), Nat.add_sub_cancel]; exact hout i hi g hg⟩
      obtain ⟨e', he'⟩ := implicit_balanced (hstep j hj)
      have hs := sweep _ hmj j hj hpsi (out j) (fun i hi g hg => (hBA i hi g hg).trans (hout i hi g hg)) g hg (e' g)
        (he' g hg).2.1 (he' g hg).2.2
      have a := hs n hn i hi.le
      have b := hs n hn (i + 1) hi
      rw [(he' g hg).1 n hn i hi]
      unfold cellAverage
      linarith
  intro j hj i hi g hg
  have := (key (j + 1) hj).2 i hi g hg
  rw [if_neg (Nat.succ_ne_zero j), Nat.add_sub_cancel] at this
  exact this

/-- C186: in a critical or supercritical system (`k ≥ 1`) a positive flux never dies out, whatever the step. -/
theorem C186_supercritical_persists (p : Problem K) (xsTotal : ℕ → ℕ → K) (scatter : ℕ → ℕ → ℕ → K)
    (fission : Fission K) (velocity : ℕ → K) (external boundary : TimeArr K) (steps : ℕ) (dt : K)
    (init : ℕ → ℕ → ℕ → K) (hok : TimedOk p xsTotal velocity dt) (hG : 0 < p.groups)
    (hext : Covers external steps) (hbnd : Covers boundary steps)
    (ht : Tame p (fun m g => xsTotal m g + 1 / (velocity g * dt))
      (fun m g g' => scatter m g g' + fissionMatrix fission m g g'))
    (hF : EmissionNonneg p (fissionMatrix fission))
    (hpe : ∀ j < steps, ∀ i < p.cells, ∀ n < p.angles, ∀ g < p.groups, 0 ≤ sourceAt (entry external j) i n g)
    (hpb : ∀ j < steps, ∀ s < 2, ∀ n < p.angles, ∀ g < p.groups, 0 ≤ sourceAt (entry boundary j) s n g)
    (mode : ℕ → ℕ → K) (k : K) (psi0 : ℕ → ℕ → ℕ → K) (hk : 1 ≤ k)
    (h : KEigenpair p xsTotal scatter (fissionMatrix fission) mode k psi0)
    (hpos : ∀ i < p.cells, ∀ g < p.groups, 0 ≤ mode i g) (m : K) (hm : 0 ≤ m)
    (hinit : ∀ i < p.cells, ∀ n < p.angles, ∀ g < p.groups, m * cellAverage psi0 i n g ≤ init i n g) :
    ∃ out, backwardEuler p xsTotal (.iso scatter) fission velocity external boundary steps dt init = .ok out ∧
      ∀ j < steps, ∀ i < p.cells, ∀ g < p.groups, m * mode i g ≤ out j i g := by
  obtain ⟨out, h1, h2⟩ := C186_supercritical_grows p xsTotal scatter fission velocity external boundary steps dt init
    hok hG hext hbnd ht hpe hpb mode k psi0 h hpos 1 le_rfl (fun i hi n hn g hg => by
      have h0 : 0 ≤ ∑ g' ∈ range p.groups, fissionMatrix fission (p.mm i) g g' * mode i g' := sum_nonneg fun g' hg' =>
        mul_nonneg (hF i hi g hg g' (mem_range.mp hg')) (hpos i hi g' (mem_range.mp hg'))
      have := div_le_self h0 hk
      linarith) m hm hinit
  exact ⟨out, h1, fun j hj i hi g hg => by simpa using h2 j hj i hi g hg⟩

/-- C186: a supercritical system (`k > 1`) with fission everywhere grows geometrically: there is one `rho > 1` for all
initial fluxes, sources and numbers of steps. -/
theorem C186_supercritical_geometric (p : Problem K) (xsTotal : ℕ → ℕ → K) (scatter : ℕ → ℕ → ℕ → K)
    (fission : Fission K) (velocity : ℕ → K) (dt : K) (hok : TimedOk p xsTotal velocity dt) (hN : 0 < p.cells)
    (hG : 0 < p.groups)
    (ht : Tame p (fun m g => xsTotal m g + 1 / (velocity g * dt))
      (fun m g g' => scatter m g g' + fissionMatrix fission m g g'))
    (hS : EmissionNonneg p scatter) (mode : ℕ → ℕ → K) (k : K) (psi0 : ℕ → ℕ → ℕ → K) (hk : 1 < k)
    (h : KEigenpair p xsTotal scatter (fissionMatrix fission) mode k psi0)
    (hpos : ∀ i < p.cells, ∀ g < p.groups, 0 ≤ mode i g)
    (hF : ∀ i < p.cells, ∀ g < p.groups, 0 < ∑ g' ∈ range p.groups, fissionMatrix fission (p.mm i) g g' * mode i g') :
    ∃ rho : K, 1 < rho ∧ ∀ (external boundary : TimeArr K) (steps : ℕ) (init : ℕ → ℕ → ℕ → K) (m : K),
      Covers external steps → Covers boundary steps →
      (∀ j < steps, ∀ i < p.cells, ∀ n < p.angles, ∀ g < p.groups, 0 ≤ sourceAt (entry external j) i n g) →
      (∀ j < steps, ∀ s < 2, ∀ n < p.angles, ∀ g < p.groups, 0 ≤ sourceAt (entry boundary j) s n g) → 0 ≤ m →
      (∀ i < p.cells, ∀ n < p.angles, ∀ g < p.groups, m * cellAverage psi0 i n g ≤ init i n g) →
      ∃ out, backwardEuler p xsTotal (.iso scatter) fission velocity external boundary steps dt init = .ok out ∧
        ∀ j < steps, ∀ i < p.cells, ∀ g < p.groups, rho ^ (j + 1) * m * mode i g ≤ out j i g := by
  have ht0 := tame_steady hok ht
  have hk0 : 0 < k := zero_lt_one.trans hk
  have hA : 0 < p.angles := lt_trans zero_lt_one hok.angles
  have hS0 : ∀ i < p.cells, ∀ g < p.groups, 0 ≤ ∑ g' ∈ range p.groups, scatter (p.mm i) g g' * mode i g' :=
    fun i hi g hg => sum_nonneg fun g' hg' =>
      mul_nonneg (hS i hi g hg g' (mem_range.mp hg')) (hpos i hi g' (mem_range.mp hg'))
  have hU : ∀ i < p.cells, ∀ n < p.angles, ∀ g < p.groups, 0 ≤ cellAverage psi0 i n g := by
    intro i hi n hn g hg
    have := swept_nonneg (ht0.ok g hg).nonzero (ht0.ok g hg).phys (ht0.fine g hg)
      (q := fun _ i => (∑ g' ∈ range p.groups, scatter (p.mm i) g g' * mode i g')
        + (∑ g' ∈ range p.groups, fissionMatrix fission (p.mm i) g g' * mode i g') / k)
      (fun n hn i hi => h.balance g hg n hn i hi) (h.inflow g hg)
      (fun n hn i hi => add_nonneg (hS0 i hi g hg) (div_nonneg (hF i hi g hg).le hk0.le))
      (fun _ _ _ => le_refl (0 : K)) (fun _ _ _ => le_refl (0 : K))
    have a := this n hn i hi.le
    have b := this n hn (i + 1) hi
    unfold cellAverage
    linarith
  obtain ⟨d, hd⟩ : ∃ d : ℕ → ℕ → ℕ → K, d = fun i n g => (∑ g' ∈ range p.groups, scatter (p.mm i) g g' * mode i g')
          + (∑ g' ∈ range p.groups, fissionMatrix fission (p.mm i) g g' * mode i g') / k
          + cellAverage psi0 i n g / (velocity g * dt) := ⟨_, rfl⟩
  obtain ⟨t, hte⟩ : ∃ t : ℕ → ℕ → ℕ → K, t = fun i n g => (∑ g' ∈ range p.groups, scatter (p.mm i) g g' * mode i g')
          + (∑ g' ∈ range p.groups, fissionMatrix fission (p.mm i) g g' * mode i g')
          + cellAverage psi0 i n g / (velocity g * dt) := ⟨_, rfl⟩
  have hd0 : ∀ i < p.cells, ∀ n < p.angles, ∀ g < p.groups, 0 < d i n g := fun i hi n hn g hg => by
    rw [hd]
    exact add_pos_of_pos_of_nonneg (add_pos_of_nonneg_of_pos (hS0 i hi g hg) (div_pos (hF i hi g hg) hk0))
      (div_nonneg (hU i hi n hn g hg) (mul_pos (hok.velocity g hg) hok.dt).le)
  have hdt : ∀ i < p.cells, ∀ n < p.angles, ∀ g < p.groups, d i n g < t i n g := fun i hi n hn g hg => by
    have := div_lt_self (hF i hi g hg) hk
    rw [hd, hte]
    linarith
  obtain ⟨m, hm, hmin⟩ := (range p.cells ×ˢ range p.angles ×ˢ range p.groups).exists_min_image
    (fun a => t a.1 a.2.1 a.2.2 / d a.1 a.2.1 a.2.2) ⟨(0, 0, 0), by simp [hN, hG, hA]⟩
  have hm1 := mem_range.mp (mem_product.mp hm).1
  have hm2 := mem_range.mp (mem_product.mp (mem_product.mp hm).2).1
  have hm3 := mem_range.mp (mem_product.mp (mem_product.mp hm).2).2
  have hr : 1 < t m.1 m.2.1 m.2.2 / d m.1 m.2.1 m.2.2 := by
    rw [one_lt_div (hd0 _ hm1 _ hm2 _ hm3)]; exact hdt _ hm1 _ hm2 _ hm3
  refine ⟨_, hr, fun external boundary steps init a hext hbnd hpe hpb ha hinit =>
    C186_supercritical_grows p xsTotal scatter fission velocity external boundary steps dt init
      hok hG hext hbnd ht hpe hpb mode k psi0 h hpos _ hr.le (fun i hi n hn g hg => ?_) a ha hinit⟩
  have := (le_div_iff₀ (hd0 i hi n hn g hg)).mp (hmin (i, n, g) (by simp [hi, hn, hg]))
  rw [hd, hte] at this ⊢
  exact this

end General

/-! ### Examples: the bare slab of `KeffMono` and its half, `v = dt = 1` -/

theorem exBareTimed : TimedOk exBare (fun _ _ => 1) (fun _ => 1) 1 :=
  ⟨exBareContractive.ok, by show 1 < 2; omega, fun _ _ => zero_lt_one, zero_lt_one⟩

theorem exHalfTimed : TimedOk (subSlab exBare 1 1) (fun _ _ => 1) (fun _ => 1) 1 :=
  ⟨exHalfContractive.ok, by show 1 < 2; omega, fun _ _ => zero_lt_one, zero_lt_one⟩

theorem exBareTame (x : ℚ) (hx : 0 ≤ x) : Tame exBare (fun m g => (fun _ _ => 1 : ℕ → ℕ → ℚ) m g
    + 1 / ((fun _ => 1 : ℕ → ℚ) g * 1)) (fun m g g' => (fun _ _ _ => 0 : ℕ → ℕ → ℕ → ℚ) m g g'
    + fissionMatrix (.matrix fun _ _ _ => x) m g g') where
  ok := fun g hg => xsStar_ok exBareTimed (zero_le_one (α := ℚ)) g hg
  fine := fun g _ n _ i _ => by simp only [exBare]; split_ifs <;> norm_num
  weights := exBareContractive.weights
  norm := exBareContractive.norm
  nonneg := fun _ _ _ _ _ _ => by simpa [fissionMatrix] using hx

-- the subcritical half relaxes
example := C186_subcritical_relaxes (subSlab exBare 1 1) (fun _ _ => 1) (fun _ _ _ => 0) (.matrix fun _ _ _ => 9 / 5)
  (fun _ => 1) 1 (1 / 2) exHalfTimed (by decide) (by decide) (by norm_num) exHalfContractive
  (fun _ _ _ _ _ _ => by norm_num [fissionMatrix])
  (fun g _ n _ i _ => by simp only [exBare, subSlab]; split_ifs <;> norm_num)
  _ _ _ (by norm_num) (by norm_num) exBareHalf (fun _ _ _ _ => by norm_num)

-- the critical whole persists
example := C186_supercritical_persists exBare (fun _ _ => 1) (fun _ _ _ => 0) (.matrix fun _ _ _ => 9 / 5)
  (fun _ => 1) ⟨1, fun _ => ⟨1, 1, fun _ _ _ => 0⟩⟩ ⟨1, fun _ => zeroBoundary⟩ 50 1 (fun _ _ _ => 8 / 5) exBareTimed
  (by decide) (Or.inl rfl) (Or.inl rfl) (exBareTame _ (by norm_num)) (fun _ _ _ _ _ _ => by norm_num [fissionMatrix])
  (fun _ _ _ _ _ _ _ _ => le_rfl) (fun _ _ _ _ _ _ _ _ => le_rfl) _ _ _ le_rfl exBarePair
  (fun _ _ _ _ => by norm_num) 1 zero_le_one (fun i hi n hn g _ => by
    have hi : i < 2 := hi
    have hn : n < 2 := hn
    have h : i = 0 ∨ i = 1 := by omega
    have h2 : n = 0 ∨ n = 1 := by omega
    rcases h with rfl | rfl <;> rcases h2 with rfl | rfl <;> norm_num [cellAverage])

/-- Twice the fission: `k = 2`. -/
theorem exBareTwice : KEigenpair exBare (fun _ _ => 1) (fun _ _ _ => 0) (fun _ _ _ => 18 / 5) (fun _ _ => 1) 2
    (fun _ n i => if n = 0 then (match i with | 0 => 8 / 5 | 1 => 6 / 5 | _ => 0)
      else (match i with | 0 => 0 | 1 => 6 / 5 | _ => 8 / 5)) where
  scalar := exBarePair.scalar
  balance := fun g hg n hn i hi => by
    exact (exBarePair.balance g hg n hn i hi).trans (by simp [exBare]; norm_num)
  inflow := exBarePair.inflow

-- and grows
example := C186_supercritical_geometric exBare (fun _ _ => 1) (fun _ _ _ => 0) (.matrix fun _ _ _ => 18 / 5)
  (fun _ => 1) 1 exBareTimed (by decide) (by decide) (exBareTame _ (by norm_num)) (fun _ _ _ _ _ _ => le_rfl)
  _ _ _ (by norm_num) exBareTwice (fun _ _ _ _ => by norm_num) (fun i _ g _ => by
    simp [fissionMatrix, exBare])

end Discrete1.Props
