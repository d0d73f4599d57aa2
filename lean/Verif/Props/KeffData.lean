import Verif.Props.Perturb
import Verif.Props.Perron

/-!
# C218: how uncertain data move the multiplication factor
-/

set_option linter.unusedSectionVars false
set_option linter.unusedSimpArgs false

namespace Discrete1.Props

open Finset Discrete1.Spec Discrete1.Slab Discrete1.Tools Discrete1.MultiGroup Discrete1.Drivers Discrete1.Critical

variable {K : Type} [Field K] [LinearOrder K] [IsStrictOrderedRing K]

/-- The answers of a down-scatter problem are monotone in the source, up to any factor. -/
theorem downscatter_compare (p : Problem K) (sigma : ℕ → ℕ → K) (xs : ℕ → ℕ → ℕ → K) {q q' f f' : ℕ → ℕ → K} {M : K}
    (hok : ∀ g < p.groups, SlabOk p sigma g)
    (hfine : ∀ g < p.groups, ∀ n < p.angles, FineFor p.cells (p.angleX n) p.dx (fun i => sigma (p.mm i) g))
    (hw : ∀ n < p.angles, 0 ≤ p.angleW n)
    (hxs : ∀ i < p.cells, ∀ g < p.groups, ∀ g' < p.groups, 0 ≤ xs (p.mm i) g g')
    (hdown : ∀ m g g', g ≤ g' → xs m g g' = 0)
    (h : Answers p sigma xs q f) (h' : Answers p sigma xs q' f')
    (hq : ∀ i < p.cells, ∀ g < p.groups, q' i g ≤ M * q i g) :
    ∀ i < p.cells, ∀ g < p.groups, f' i g ≤ M * f i g := by
  obtain ⟨psi, hs⟩ := h
  obtain ⟨psi', hs'⟩ := h'
  have main : ∀ g < p.groups, ∀ i < p.cells, f' i g ≤ M * f i g := by
    intro g
    induction g using Nat.strong_induction_on with
    | _ g ih =>
      intro hg i hi
      have hbal : AllBalanced p.cells p.angles p.angleX p.dx (fun i => sigma (p.mm i) g)
          (fun n i => ∑ og ∈ range p.groups, xs (p.mm i) g og * (M * f i og - f' i og) + (M * q i g - q' i g))
          (fun n i => M * psi g n i + -1 * psi' g n i) := fun n hn i hi => by
        have h1 := hs.balance g hg n hn i hi
        have h2 := hs'.balance g hg n hn i hi
        beta_reduce at h1 h2 ⊢
        have e : ∑ og ∈ range p.groups, xs (p.mm i) g og * (M * f i og - f' i og)
            = M * (∑ og ∈ range p.groups, xs (p.mm i) g og * f i og)
              - ∑ og ∈ range p.groups, xs (p.mm i) g og * f' i og := by
          rw [mul_sum, ← sum_sub_distrib]
          exact sum_congr rfl fun _ _ => by ring
        simp only [bidx_full _ _ hg] at h1 h2
        rw [e]
        linear_combination M * h1 - h2
      have nn := swept_nonneg (hok g hg).nonzero (hok g hg).phys (hfine g hg) hbal
        (sweptInflow_add (sweptInflow_smul M (hs.inflow g hg)) (sweptInflow_smul (-1) (hs'.inflow g hg)))
        (fun n hn i hi => by
          refine add_nonneg (sum_nonneg fun og hog => ?_) (by linarith [hq i hi g hg])
          by_cases hlt : og < g
          · exact mul_nonneg (hxs i hi g hg og (mem_range.mp hog)) (by linarith [ih og hlt (by omega) i hi])
          · rw [hdown _ _ _ (not_lt.mp hlt), zero_mul])
        (fun n hn _ => by simp [zeroBoundary]) (fun n hn _ => by simp [zeroBoundary])
      have e1 := hs.scalar g hg i hi
      have e2 := hs'.scalar g hg i hi
      have h3 := scalarCenter_scaled_le (E := M) (psi := psi g) (psi' := psi' g) (i := i) hw
        (fun n hn => by have := nn n hn i hi.le; beta_reduce at this; linarith)
        (fun n hn => by have := nn n hn (i + 1) hi; beta_reduce at this; linarith)
      rw [e1, e2]
      exact h3
  exact fun i hi g hg => main g hg i hi

/-- The largest ratio of two positive fluxes is taken somewhere. -/
theorem max_ratio {N G : ℕ} (hN : 0 < N) (hG : 0 < G) {a b : ℕ → ℕ → K} (hb : ∀ i < N, ∀ g < G, 0 < b i g) :
    ∃ i0 < N, ∃ g0 < G, ∀ i < N, ∀ g < G, a i g ≤ a i0 g0 / b i0 g0 * b i g := by
  obtain ⟨x, hx, hmax⟩ := Finset.exists_max_image (range N ×ˢ range G) (fun x => a x.1 x.2 / b x.1 x.2)
    ⟨(0, 0), by simp [hN, hG]⟩
  simp only [mem_product, mem_range] at hx hmax
  refine ⟨x.1, hx.1, x.2, hx.2, fun i hi g hg => ?_⟩
  have := hmax (i, g) ⟨hi, hg⟩
  rw [← div_le_iff₀ (hb i hi g hg)]
  exact this

/-- C218 with explicit factors. -/
theorem keff_near {th c s : K} (hc : 1 ≤ c) (hth0 : 0 ≤ th) (hth1 : th * c ^ 2 < 1)
    (hs : s = c * (1 - th) / (1 - th * c ^ 2)) (p : Problem K) (hN : 0 < p.cells) (hG : 0 < p.groups) (dx' : ℕ → K)
    (sigma sigma' : ℕ → ℕ → K) (xs xs' F F' : ℕ → ℕ → ℕ → K)
    (hok : ∀ g < p.groups, SlabOk p sigma g)
    (hfine : ∀ g < p.groups, ∀ n < p.angles, FineBy th p.cells (p.angleX n) p.dx (fun i => sigma (p.mm i) g))
    (hw : ∀ n < p.angles, 0 ≤ p.angleW n)
    (hdown : ∀ m g g', g ≤ g' → xs m g g' = 0) (hdown' : ∀ m g g', g ≤ g' → xs' m g g' = 0)
    (ndx : ∀ i < p.cells, WithinFactor c (p.dx i) (dx' i))
    (nsg : ∀ i < p.cells, ∀ g < p.groups, WithinFactor c (sigma (p.mm i) g) (sigma' (p.mm i) g))
    (nX : ∀ i < p.cells, ∀ g < p.groups, ∀ g' < g, WithinFactor c (xs (p.mm i) g g') (xs' (p.mm i) g g'))
    (nF : ∀ i < p.cells, ∀ g < p.groups, ∀ g' < p.groups, WithinFactor c (F (p.mm i) g g') (F' (p.mm i) g g'))
    (phi phi' : ℕ → ℕ → K) (k k' : K) (psi psi' : ℕ → ℕ → ℕ → K) (hk : 0 < k) (hk' : 0 < k')
    (h : KEigenpair p sigma xs F phi k psi) (h' : KEigenpair { p with dx := dx' } sigma' xs' F' phi' k' psi')
    (hpos : ∀ i < p.cells, ∀ g < p.groups, 0 < phi i g) (hpos' : ∀ i < p.cells, ∀ g < p.groups, 0 < phi' i g) :
    WithinFactor ((c * ((s * c) ^ p.cells) ^ 2) ^ p.groups) k k' := by
  have hc0 : 0 < c := by linarith
  have hs1 : 1 ≤ s := by rw [hs]; exact one_le_subFactor hc hth0 hth1
  have hsc : 1 ≤ s * c := by nlinarith
  obtain ⟨Q, hQ⟩ : ∃ Q, Q = ((s * c) ^ p.cells) ^ 2 := ⟨_, rfl⟩
  have hQ1 : 1 ≤ Q := hQ ▸ one_le_pow₀ (one_le_pow₀ hsc)
  have hQ0 : 0 < Q := by linarith
  have hcQ : 1 ≤ c * Q := by nlinarith
  rw [← hQ]
  obtain ⟨E, hE⟩ : ∃ E, E = (c * Q) ^ p.groups := ⟨_, rfl⟩
  have hE1 : 1 ≤ E := hE ▸ one_le_pow₀ hcQ
  have hE0 : 0 < E := by linarith
  rw [← hE]
  have hth : th < 1 := by nlinarith [one_le_pow₀ (n := 2) hc]
  have hfine' : ∀ g < p.groups, ∀ n < p.angles, FineFor p.cells (p.angleX n) p.dx (fun i => sigma (p.mm i) g) :=
    fun g hg n hn i hi => (hfine g hg n hn i hi).trans (mul_le_of_le_one_left (by positivity) hth.le)
  have hxs : ∀ i < p.cells, ∀ g < p.groups, ∀ g' < p.groups, 0 ≤ xs (p.mm i) g g' := fun i hi g hg g' hg' => by
    by_cases hlt : g' < g
    · exact (nX i hi g hg g' hlt).left_nonneg hc0
    · rw [hdown _ _ _ (not_lt.mp hlt)]
  have hF0 : ∀ i < p.cells, ∀ g < p.groups, ∀ g' < p.groups, 0 ≤ F (p.mm i) g g' := fun i hi g hg g' hg' =>
    (nF i hi g hg g' hg').left_nonneg hc0
  have ans := eigen_answers hk.ne' h
  obtain ⟨ps', hs'⟩ := eigen_answers hk'.ne' h'
  -- the flux that the fission source of `phi'` gives in the unprimed problem
  obtain ⟨y, ey, -, hy⟩ := C22_downscatter_exact p sigma xs
    ⟨p.angles, p.groups, fun i _ g => emission p F phi' i g⟩ zeroBoundary (fun _ _ => 0) hok hdown
  have near : ∀ i < p.cells, ∀ g < p.groups, WithinFactor E (y i g) (k' * phi' i g) := by
    intro i hi g hg
    have := (downscatter_near hc hc hth0 hth1 hs hc p dx' sigma sigma' xs xs'
      ⟨p.angles, p.groups, fun i _ g => emission p F phi' i g⟩
      ⟨p.angles, p.groups, fun i _ g => emission { p with dx := dx' } F' phi' i g⟩ zeroBoundary zeroBoundary hok hfine hw
      hdown hdown' ndx nsg nX (fun i hi n hn g hg => by
        simp only [sourceAt, ← bidx.eq_1]
        rw [show bidx p.groups g = g from bidx_full _ _ hg]
        unfold emission
        refine sum_near hc fun g' hg' => ?_
        have := (nF i hi g hg g' hg').mul hc0 one_pos (WithinFactor.refl (c := 1) le_rfl (hpos' i hi g' hg').le)
        rwa [mul_one] at this)
      (fun s _ n _ g _ => WithinFactor.refl hc (by simp [sourceAt, zeroBoundary])) y (fun i g => k' * phi' i g) ey ps'
      hy hs' g hg).1 i hi
    rw [← hQ] at this
    refine this.mono (by positivity) ?_
    rw [hE, ← pow_succ']
    exact pow_le_pow_right₀ hcQ hg
  have hy' : Answers p sigma xs (emission p F phi') y := ⟨ey, hy⟩
  refine ⟨hk'.le, ?_, ?_⟩
  · obtain ⟨i0, hi0, g0, hg0, hmax⟩ := max_ratio (a := phi') hN hG hpos
    obtain ⟨M, hM⟩ : ∃ M, M = phi' i0 g0 / phi i0 g0 := ⟨_, rfl⟩
    rw [← hM] at hmax
    have h1 := downscatter_compare p sigma xs (M := M) hok hfine' hw hxs hdown ans hy' (fun i hi g hg => by
      unfold emission
      rw [mul_sum]
      refine sum_le_sum fun g' hg' => ?_
      have := mul_le_mul_of_nonneg_left (hmax i hi g' (mem_range.mp hg')) (hF0 i hi g hg g' (mem_range.mp hg'))
      linarith) i0 hi0 g0 hg0
    have h2 := (near i0 hi0 g0 hg0).2.1
    have hp := hpos' i0 hi0 g0 hg0
    have e : M * phi i0 g0 = phi' i0 g0 := by rw [hM]; field_simp [(hpos i0 hi0 g0 hg0).ne']
    have h3 : E * y i0 g0 ≤ E * (k * phi' i0 g0) := by
      refine mul_le_mul_of_nonneg_left (h1.trans (le_of_eq ?_)) hE0.le
      rw [← e]; ring
    refine le_of_mul_le_mul_right ?_ hp
    linarith
  · obtain ⟨i0, hi0, g0, hg0, hmax⟩ := max_ratio (a := phi) hN hG hpos'
    obtain ⟨M, hM⟩ : ∃ M, M = phi i0 g0 / phi' i0 g0 := ⟨_, rfl⟩
    rw [← hM] at hmax
    have hp := hpos' i0 hi0 g0 hg0
    have hM0 : 0 ≤ M := by rw [hM]; exact (div_pos (hpos i0 hi0 g0 hg0) hp).le
    have h1 := downscatter_compare p sigma xs (M := M) hok hfine' hw hxs hdown hy' ans (fun i hi g hg => by
      unfold emission
      rw [mul_sum]
      refine sum_le_sum fun g' hg' => ?_
      have := mul_le_mul_of_nonneg_left (hmax i hi g' (mem_range.mp hg')) (hF0 i hi g hg g' (mem_range.mp hg'))
      linarith) i0 hi0 g0 hg0
    have h2 := (near i0 hi0 g0 hg0).2.2
    have e : M * phi' i0 g0 = phi i0 g0 := by rw [hM]; field_simp [hp.ne']
    have h3 : M * y i0 g0 ≤ E * k' * phi i0 g0 := by
      refine (mul_le_mul_of_nonneg_left h2 hM0).trans (le_of_eq ?_)
      rw [← e]; ring
    refine le_of_mul_le_mul_right ?_ (hpos i0 hi0 g0 hg0)
    linarith

/-- C218: if the cell widths and the total, scattering and fission cross sections of two down-scatter
problems agree up to the factor `1/(1 - eps)`, their multiplication factors agree up to the factor `1/(1 - G D eps)`,
`D` that of C215. -/
theorem C218_keff_conditioning {th eps : K} (heps : 0 ≤ eps) (hth0 : 0 ≤ th) (hth1 : th < 1) (p : Problem K)
    (hN : 0 < p.cells) (hG : 0 < p.groups) (dx' : ℕ → K) (sigma sigma' : ℕ → ℕ → K) (xs xs' F F' : ℕ → ℕ → ℕ → K)
    (hok : ∀ g < p.groups, SlabOk p sigma g)
    (hfine : ∀ g < p.groups, ∀ n < p.angles, ∀ i < p.cells, sigma (p.mm i) g * p.dx i ≤ th * (2 * |p.angleX n|))
    (hw : ∀ n < p.angles, 0 ≤ p.angleW n)
    (hdown : ∀ m g g', g ≤ g' → xs m g g' = 0 ∧ xs' m g g' = 0)
    (ndx : ∀ i < p.cells, WithinFactor (1 / (1 - eps)) (p.dx i) (dx' i))
    (nT : ∀ i < p.cells, ∀ g < p.groups, WithinFactor (1 / (1 - eps)) (sigma (p.mm i) g) (sigma' (p.mm i) g))
    (nS : ∀ i < p.cells, ∀ g < p.groups, ∀ g' < g, WithinFactor (1 / (1 - eps)) (xs (p.mm i) g g') (xs' (p.mm i) g g'))
    (nF : ∀ i < p.cells, ∀ g < p.groups, ∀ g' < p.groups,
      WithinFactor (1 / (1 - eps)) (F (p.mm i) g g') (F' (p.mm i) g g'))
    (phi phi' : ℕ → ℕ → K) (k k' : K) (psi psi' : ℕ → ℕ → ℕ → K) (hk : 0 < k) (hk' : 0 < k')
    (h : KEigenpair p sigma xs F phi k psi) (h' : KEigenpair { p with dx := dx' } sigma' xs' F' phi' k' psi')
    (hpos : ∀ i < p.cells, ∀ g < p.groups, 0 < phi i g) (hpos' : ∀ i < p.cells, ∀ g < p.groups, 0 < phi' i g)
    (hcost : p.groups * dataCost th p.cells * eps < 1) :
    WithinFactor (1 / (1 - p.groups * dataCost th p.cells * eps)) k k' := by
  have hD : 0 ≤ dataCost th p.cells := by
    unfold dataCost
    have : (0 : K) < 1 - th := by linarith
    positivity
  have hG1 : (1 : K) ≤ p.groups := by exact_mod_cast hG
  have hcost1 : dataCost th p.cells * eps < 1 := by
    refine lt_of_le_of_lt ?_ hcost
    rw [mul_assoc]
    exact le_mul_of_one_le_left (mul_nonneg hD heps) hG1
  obtain ⟨c, hc⟩ : ∃ c, c = 1 / (1 - eps) := ⟨_, rfl⟩
  obtain ⟨hc1, hth2, -, hF⟩ := groupFactor_bound hN heps hth0 hth1 hcost1 hc
  have hc0 : 0 < c := by linarith
  rw [← hc] at ndx nT nS nF
  obtain ⟨s, hs⟩ : ∃ s, s = c * (1 - th) / (1 - th * c ^ 2) := ⟨_, rfl⟩
  have hs1 : 1 ≤ s := by rw [hs]; exact one_le_subFactor hc1 hth0 hth2
  have hs0 : 0 < s := by linarith
  rw [← hs] at hF
  refine (keff_near hc1 hth0 hth2 hs p hN hG dx' sigma sigma' xs xs' F F' hok hfine hw (fun m g g' h => (hdown m g g' h).1)
    (fun m g g' h => (hdown m g g' h).2) ndx nT nS nF phi phi' k k' psi psi' hk hk' h h' hpos hpos').mono
    (by positivity) ?_
  have b := bound_pow (by positivity) (mul_nonneg hD heps) hF p.groups
  rw [← mul_assoc] at b
  rw [le_div_iff₀ (by linarith)]
  exact b

/-- C218, of the numbers `power_iteration` reports: two runs stopped by the tolerance before the hundredth iterate, on
data that agree up to the factor `1/(1 - eps)`, report multiplication factors that agree up to the data factor times
`((1 + tau)/(1 - tau))²`, `tau` cells times tolerance. -/
theorem C218_power_iteration {th eps : K} (heps : 0 ≤ eps) (hth0 : 0 ≤ th) (hth1 : th < 1) (p : Problem K)
    (hN : 0 < p.cells) (hG : 0 < p.groups) (dx' : ℕ → K) (sigma sigma' : ℕ → ℕ → K) (xs xs' : ℕ → ℕ → ℕ → K)
    (fission fission' : Fission K) (c : K) (hc : 0 ≤ c) (hc1 : c < 1)
    (hcon : Contractive p sigma xs c) (hcon' : Contractive { p with dx := dx' } sigma' xs' c)
    (hfine : ∀ g < p.groups, ∀ n < p.angles, ∀ i < p.cells, sigma (p.mm i) g * p.dx i ≤ th * (2 * |p.angleX n|))
    (hdown : ∀ m g g', g ≤ g' → xs m g g' = 0 ∧ xs' m g g' = 0)
    (ndx : ∀ i < p.cells, WithinFactor (1 / (1 - eps)) (p.dx i) (dx' i))
    (nT : ∀ i < p.cells, ∀ g < p.groups, WithinFactor (1 / (1 - eps)) (sigma (p.mm i) g) (sigma' (p.mm i) g))
    (nS : ∀ i < p.cells, ∀ g < p.groups, ∀ g' < g, WithinFactor (1 / (1 - eps)) (xs (p.mm i) g g') (xs' (p.mm i) g g'))
    (nF : ∀ i < p.cells, ∀ g < p.groups, ∀ g' < p.groups,
      WithinFactor (1 / (1 - eps)) (fissionMatrix fission (p.mm i) g g') (fissionMatrix fission' (p.mm i) g g'))
    (hf : FissionNonneg p.groups fission) (hf' : FissionNonneg p.groups fission')
    (hF : EmissionNonneg p (fissionMatrix fission))
    (hF' : EmissionNonneg { p with dx := dx' } (fissionMatrix fission'))
    (phi phi' : ℕ → ℕ → K) (k k' : K) (psi psi' : ℕ → ℕ → ℕ → K) (hk : 0 < k) (hk' : 0 < k')
    (h : KEigenpair p sigma xs (fissionMatrix fission) phi k psi)
    (h' : KEigenpair { p with dx := dx' } sigma' xs' (fissionMatrix fission') phi' k' psi')
    (hpos : ∀ i < p.cells, ∀ g < p.groups, 0 < phi i g) (hpos' : ∀ i < p.cells, ∀ g < p.groups, 0 < phi' i g)
    (hprod : 0 < totalProduction p (fissionMatrix fission) phi)
    (hprod' : 0 < totalProduction { p with dx := dx' } (fissionMatrix fission') phi')
    (hcost : p.groups * dataCost th p.cells * eps < 1)
    (norm norm' : (ℕ → ℕ → K) → K) (hnorm : ∀ f, (∀ i < p.cells, ∀ g < p.groups, 0 < f i g) → 0 < norm f)
    (hnorm' : ∀ f, (∀ i < p.cells, ∀ g < p.groups, 0 < f i g) → 0 < norm' f)
    (random random' : ℕ → ℕ → K) (hrand : ∀ i < p.cells, ∀ g < p.groups, 0 < random i g)
    (hrand' : ∀ i < p.cells, ∀ g < p.groups, 0 < random' i g)
    (tol tau : K) (htol : 0 ≤ tol) (htau : tau = p.cells * tol) (htau1 : tau < 1) :
    ∃ s n s' n', powerIteration p norm (fluxConverged2 p.cells p.groups tol) sigma (.iso xs) fission random = .ok (s, n) ∧
      powerIteration { p with dx := dx' } norm' (fluxConverged2 p.cells p.groups tol) sigma' (.iso xs') fission' random'
        = .ok (s', n') ∧
      (n < 100 → n' < 100 → WithinFactor
        ((1 + tau) / (1 - tau) * (1 / (1 - p.groups * dataCost th p.cells * eps)) * ((1 + tau) / (1 - tau)))
        s.keff s'.keff) := by
  obtain ⟨s, n, hs, hb⟩ := C172_tolerance_bounds_keff p norm tol htol sigma xs fission c hc hc1 hcon hf hF hN hG 0 le_rfl
    one_pos (downscatter_accurate p sigma xs fission hc1 hcon (fun m g g' h => (hdown m g g' h).1) hf) phi k psi hk h
    hpos hprod hnorm random hrand tau htau htau1
  obtain ⟨s', n', hs', hb'⟩ := C172_tolerance_bounds_keff { p with dx := dx' } norm' tol htol sigma' xs' fission' c hc hc1
    hcon' hf' hF' hN hG 0 le_rfl one_pos (downscatter_accurate _ sigma' xs' fission' hc1 hcon'
      (fun m g g' h => (hdown m g g' h).2) hf') phi' k' psi' hk' h' hpos' hprod' hnorm' random' hrand' tau htau htau1
  refine ⟨s, n, s', n', hs, hs', fun hn hn' => ?_⟩
  have near := C218_keff_conditioning heps hth0 hth1 p hN hG dx' sigma sigma' xs xs' _ _ hcon.ok hfine hcon.weights hdown
    ndx nT nS nF phi phi' k k' psi psi' hk hk' h h' hpos hpos' hcost
  obtain ⟨b1, b2⟩ := hb hn
  obtain ⟨b3, b4⟩ := hb' hn'
  have ht0 : 0 ≤ tau := htau ▸ mul_nonneg (Nat.cast_nonneg _) htol
  have h1 : 0 < 1 - tau := by linarith
  have h2 : 0 < 1 + tau := by linarith
  simp only [sub_zero, add_zero, one_mul] at b1 b2 b3 b4
  have hR : 0 < (1 + tau) / (1 - tau) := div_pos h2 h1
  have hsk : 0 ≤ s.keff := le_trans (by positivity) b1
  have hsk' : 0 ≤ s'.keff := le_trans (by positivity) b3
  have e : (1 + tau) / (1 - tau) * ((1 - tau) / (1 + tau)) = 1 := by field_simp
  have f1 : WithinFactor ((1 + tau) / (1 - tau)) s.keff k := ⟨hk.le, by
    have := mul_le_mul_of_nonneg_left b1 hR.le
    rwa [← mul_assoc, e, one_mul] at this, b2⟩
  have f2 : WithinFactor ((1 + tau) / (1 - tau)) k' s'.keff := ⟨hsk', b4, by
    have := mul_le_mul_of_nonneg_left b3 hR.le
    rwa [← mul_assoc, e, one_mul] at this⟩
  have hQ : 0 < 1 / (1 - p.groups * dataCost th p.cells * eps) := one_div_pos.mpr (by linarith)
  exact (f1.trans hR hQ near).trans (mul_pos hR hQ) hR f2

/-! ## Non-vacuity -/

/-- The fission matrix of `exCrit`, one part in a thousand larger. -/
def exCritFission' : ℕ → ℕ → ℕ → ℚ := fun m g g' => 1001 / 1000 * exCritFission m g g'

theorem exCritFission'_nonneg : EmissionNonneg exCrit exCritFission' := fun i hi g hg g' hg' =>
  mul_nonneg (by norm_num) (exCritFission_nonneg i hi g hg g' hg')

theorem exCritPair' : KEigenpair exCrit (fun _ _ => 1) exCritDown exCritFission' (fun _ _ => 1) (1001 / 1000)
    (fun _ n i => if n = 0 then (if i = 0 then 2 else 0) else if i = 0 then 0 else 2) where
  scalar := exCritDownPair.scalar
  balance := fun g hg n hn i hi => by
    rw [exCritDownPair.balance g hg n hn i hi]
    simp only [exCritFission', mul_assoc, ← mul_sum]
    congr 1
    ring
  inflow := exCritDownPair.inflow

theorem exCrit_near {x : ℚ} (hx : 0 ≤ x) : WithinFactor (1 / (1 - 1 / 1000)) x x :=
  WithinFactor.refl (by norm_num) hx

theorem exCritFission_near (m g g' : ℕ) :
    WithinFactor (1 / (1 - 1 / 1000)) (exCritFission m g g') (exCritFission' m g g') := by
  simp only [WithinFactor, exCritFission', exCritFission]
  split_ifs <;> norm_num

theorem exCrit_fine : ∀ g < exCrit.groups, ∀ n < exCrit.angles, ∀ i < exCrit.cells,
    (1 : ℚ) * exCrit.dx i ≤ 1 / 2 * (2 * |exCrit.angleX n|) := fun _ _ n _ _ _ => by
  simp only [exCrit]
  split_ifs <;> norm_num

theorem exCritDown_lower (m g g' : ℕ) (h : g ≤ g') : exCritDown m g g' = 0 := by
  simp only [exCritDown]
  rw [if_neg (by omega)]

theorem exCritDown_nonneg (m g g' : ℕ) : 0 ≤ exCritDown m g g' := by
  simp only [exCritDown]
  split_ifs <;> norm_num

example : WithinFactor (1 / (1 - 2 * dataCost (1 / 2) 1 * (1 / 1000 : ℚ))) 1 (1001 / 1000) :=
  C218_keff_conditioning (by norm_num) (by norm_num) (by norm_num) exCrit (by norm_num [exCrit]) (by norm_num [exCrit])
    exCrit.dx (fun _ _ => 1) (fun _ _ => 1) exCritDown exCritDown exCritFission exCritFission' exCritDownContractive.ok
    exCrit_fine exCritDownContractive.weights (fun m g g' h => ⟨exCritDown_lower m g g' h, exCritDown_lower m g g' h⟩)
    (fun _ _ => exCrit_near (by norm_num [exCrit])) (fun _ _ _ _ => exCrit_near (by norm_num))
    (fun _ _ _ _ _ _ => exCrit_near (exCritDown_nonneg _ _ _)) (fun _ _ _ _ _ _ => exCritFission_near _ _ _)
    (fun _ _ => 1) (fun _ _ => 1) 1 (1001 / 1000) _ _ (by norm_num) (by norm_num) exCritDownPair exCritPair'
    (fun _ _ _ _ => by norm_num) (fun _ _ _ _ => by norm_num) (by norm_num [exCrit, dataCost])

example := C218_power_iteration (eps := 1 / 1000) (th := 1 / 2) (by norm_num) (by norm_num) (by norm_num) exCrit
    (by norm_num [exCrit]) (by norm_num [exCrit]) exCrit.dx (fun _ _ => 1) (fun _ _ => 1) exCritDown exCritDown
    (.matrix exCritFission) (.matrix exCritFission') (1 / 2) (by norm_num) (by norm_num) exCritDownContractive
    exCritDownContractive exCrit_fine (fun m g g' h => ⟨exCritDown_lower m g g' h, exCritDown_lower m g g' h⟩)
    (fun _ _ => exCrit_near (by norm_num [exCrit])) (fun _ _ _ _ => exCrit_near (by norm_num))
    (fun _ _ _ _ _ _ => exCrit_near (exCritDown_nonneg _ _ _)) (fun _ _ _ _ _ _ => exCritFission_near _ _ _)
    (fun _ g _ _ _ => by simp only [exCritFission]; split_ifs <;> norm_num)
    (fun _ g _ _ _ => by simp only [exCritFission', exCritFission]; split_ifs <;> norm_num)
    exCritFission_nonneg exCritFission'_nonneg (fun _ _ => 1) (fun _ _ => 1) 1 (1001 / 1000) _ _ (by norm_num)
    (by norm_num) exCritDownPair exCritPair' (fun _ _ _ _ => by norm_num) (fun _ _ _ _ => by norm_num)
    (by norm_num [totalProduction, exCrit, fissionMatrix, exCritFission, sum_range_succ])
    (by norm_num [totalProduction, exCrit, fissionMatrix, exCritFission', exCritFission, sum_range_succ])
    (by norm_num [exCrit, dataCost]) (fun f => |f 0 0|) (fun f => |f 0 1|)
    (fun f hf => abs_pos.mpr (hf 0 (by norm_num [exCrit]) 0 (by norm_num [exCrit])).ne')
    (fun f hf => abs_pos.mpr (hf 0 (by norm_num [exCrit]) 1 (by norm_num [exCrit])).ne')
    (fun _ _ => 1) (fun i g => i + g + 1) (fun _ _ _ _ => by norm_num) (fun i _ g _ => by positivity)
    (1 / 100) (1 / 100) (by norm_num) (by norm_num [exCrit]) (by norm_num)

end Discrete1.Props
