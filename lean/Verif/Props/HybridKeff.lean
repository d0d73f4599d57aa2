import Verif.Props.HybridCalls
import Verif.Props.HybridExact
import Verif.Props.DmdDriver

/-!
# C193: `hybrid_power_iteration` on coarse groups that lose nothing
-/

set_option linter.unusedSectionVars false
set_option linter.unusedSimpArgs false

namespace Discrete1.Props

open Finset Discrete1.Spec Discrete1.Slab Discrete1.Tools Discrete1.MultiGroup Discrete1.Drivers
  Discrete1.Auto Discrete1.Setup Discrete1.Hybrid Discrete1.Critical Discrete1.HybridCalls

variable {K : Type} [Field K] [LinearOrder K] [IsStrictOrderedRing K]

/-- The fine groups that make up coarse group `c`. -/
def fineOf (G : ℕ) (coarse : ℕ → ℕ) (c : ℕ) : Finset ℕ := (range G).filter (fun g => coarse g = c)

theorem mem_fineOf {G : ℕ} {coarse : ℕ → ℕ} {c g : ℕ} : g ∈ fineOf G coarse c ↔ g < G ∧ coarse g = c := by
  unfold fineOf; rw [mem_filter, mem_range]

/-- A sum of fluxes without boundary sources has none. -/
theorem sweptInflow_sum {N A : ℕ} {mu : ℕ → K} {bcL bcR : Bool} {e : ℕ → ℕ → ℕ → K} (s : Finset ℕ)
    (h : ∀ g ∈ s, SweptInflow N A mu bcL bcR (fun _ => 0) (fun _ => 0) (e g)) :
    SweptInflow N A mu bcL bcR (fun _ => 0) (fun _ => 0) (fun n i => ∑ g ∈ s, e g n i) := by
  have h0 : SweptInflow N A mu bcL bcR (fun _ => 0) (fun _ => 0) (fun _ _ => (0 : K)) := by
    intro n _
    simp [inflow, outflow]
  have := sweptInflow_block (e := e) (e' := fun _ _ _ => 0) (bL := fun _ _ => 0) (bR := fun _ _ => 0) s h
    (fun _ _ => h0)
  simpa using this

/-- A sum over all fine groups of a quantity whose coefficient only depends on the coarse group. -/
theorem sum_by_coarse {G C : ℕ} {coarse : ℕ → ℕ} (hto : ∀ g < G, coarse g < C) (a b f : ℕ → K)
    (ha : ∀ g < G, a g = b (coarse g)) :
    ∑ g ∈ range G, a g * f g = ∑ c ∈ range C, b c * ∑ g ∈ fineOf G coarse c, f g := by
  rw [← sum_fiberwise_of_maps_to (s := range G) (t := range C) (g := coarse)
    (fun g hg => mem_range.mpr (hto g (mem_range.mp hg)))]
  refine sum_congr rfl fun c _ => ?_
  rw [mul_sum]
  refine sum_congr rfl fun g hg => ?_
  have := mem_filter.mp hg
  rw [ha g (mem_range.mp this.1), this.2]

/-- Transport on the fine groups, summed over each coarse group, is transport on the coarse groups, when total and
transfer do not vary within one. -/
theorem block_solves {p pC : Problem K} (hsame : SameSpace p pC) {xsTotal xsTotalC : ℕ → ℕ → K}
    {xs xsC : ℕ → ℕ → ℕ → K} {coarse : ℕ → ℕ} {src : Arr3 K} {s : ℕ → ℕ → K}
    (hto : ∀ g < p.groups, coarse g < pC.groups)
    (hflat : ∀ i < p.cells, ∀ g < p.groups, xsTotalC (p.mm i) (coarse g) = xsTotal (p.mm i) g)
    (hxs : ∀ i < p.cells, ∀ c < pC.groups, ∀ g < p.groups,
      xsC (p.mm i) c (coarse g) = ∑ og ∈ fineOf p.groups coarse c, xs (p.mm i) og g)
    (hs : ∀ i < p.cells, ∀ n < p.angles, ∀ g < p.groups,
      src.val i (bidx src.angles n) (bidx src.groups g) = s i g)
    {phi : ℕ → ℕ → K} {psi : ℕ → ℕ → ℕ → K}
    (h : SolvesMultigroup p xsTotal xs src zeroBoundary phi psi) :
    SolvesMultigroup pC xsTotalC xsC
      ⟨1, pC.groups, fun i _ c => ∑ g ∈ fineOf p.groups coarse c, s i g⟩ zeroBoundary
      (fun i c => ∑ g ∈ fineOf p.groups coarse c, phi i g)
      (fun c n i => ∑ g ∈ fineOf p.groups coarse c, psi g n i) := by
  refine ⟨fun c hc i hi => ?_, fun c hc n hn i hi => ?_, fun c hc => ?_⟩
  · rw [hsame.cells] at hi
    unfold scalarCenter
    rw [hsame.angles, hsame.angleW]
    rw [sum_congr rfl fun g hg => h.scalar g (mem_fineOf.mp hg).1 i hi]
    unfold scalarCenter
    rw [sum_comm]
    refine sum_congr rfl fun n _ => ?_
    rw [← mul_sum, ← sum_div, sum_add_distrib]
  · rw [hsame.cells] at hi
    rw [hsame.angles] at hn
    rw [hsame.dx, hsame.mm, hsame.angleX]
    have hone : ∀ g ∈ fineOf p.groups coarse c, p.angleX n * (psi g n (i + 1) - psi g n i) / p.dx i
        + xsTotalC (p.mm i) c * ((psi g n i + psi g n (i + 1)) / 2)
        = (∑ g' ∈ range p.groups, xs (p.mm i) g g' * phi i g') + s i g := by
      intro g hg
      obtain ⟨h1, h2⟩ := mem_fineOf.mp hg
      have a := h.balance g h1 n hn i hi
      simp only at a
      rw [hs i hi n hn g h1] at a
      have hf := hflat i hi g h1
      rw [h2] at hf
      rw [hf]
      exact a
    have hsum := sum_congr (s₁ := fineOf p.groups coarse c) rfl hone
    have e1 : ∑ g ∈ fineOf p.groups coarse c, (p.angleX n * (psi g n (i + 1) - psi g n i) / p.dx i
        + xsTotalC (p.mm i) c * ((psi g n i + psi g n (i + 1)) / 2))
        = p.angleX n * (∑ g ∈ fineOf p.groups coarse c, psi g n (i + 1)
            - ∑ g ∈ fineOf p.groups coarse c, psi g n i) / p.dx i
          + xsTotalC (p.mm i) c * ((∑ g ∈ fineOf p.groups coarse c, psi g n i
            + ∑ g ∈ fineOf p.groups coarse c, psi g n (i + 1)) / 2) := by
      rw [← sum_sub_distrib, ← sum_add_distrib, mul_sum, sum_div, sum_div, mul_sum, ← sum_add_distrib]
    rw [e1] at hsum
    refine hsum.trans ?_
    beta_reduce
    simp only
    rw [bidx_full _ _ hc, sum_add_distrib]
    congr 1
    rw [sum_comm]
    simp only [← sum_mul]
    exact sum_by_coarse hto (fun g' => ∑ g ∈ fineOf p.groups coarse c, xs (p.mm i) g g') (xsC (p.mm i) c) (phi i)
      (fun g hg => (hxs i hi c hc g hg).symm)
  · rw [hsame.cells, hsame.angles, hsame.angleX, hsame.bcL, hsame.bcR]
    have := sweptInflow_sum (fineOf p.groups coarse c) (e := psi) (N := p.cells) (A := p.angles) (mu := p.angleX)
      (bcL := p.bcL) (bcR := p.bcR) (fun g hg => by
        have := h.inflow g (mem_fineOf.mp hg).1
        simpa [zeroBoundary] using this)
    simpa [zeroBoundary] using this

/-- A row that does not vary within coarse groups is a function of the coarse group. -/
theorem by_coarse {G : ℕ} {coarse : ℕ → ℕ} (a : ℕ → K)
    (h : ∀ g < G, ∀ g' < G, coarse g = coarse g' → a g = a g') : ∃ b : ℕ → K, ∀ g < G, a g = b (coarse g) := by
  classical
  refine ⟨fun c => if h : ∃ g, g < G ∧ coarse g = c then a h.choose else 0, fun g hg => ?_⟩
  have hex : ∃ g', g' < G ∧ coarse g' = coarse g := ⟨g, hg, rfl⟩
  beta_reduce
  rw [dif_pos hex]
  exact h g hg _ hex.choose_spec.1 hex.choose_spec.2.symm

/-- Coarse transport problems with a strictly lower triangular transfer matrix have one solution. -/
theorem downscatter_unique_local (p : Problem K) (xsTotal : ℕ → ℕ → K) (xs : ℕ → ℕ → ℕ → K)
    (external boundary : Arr3 K) (hok : ∀ g < p.groups, SlabOk p xsTotal g)
    (hdown : ∀ m, ∀ g < p.groups, ∀ g' < p.groups, g ≤ g' → xs m g g' = 0) {phi phi' : ℕ → ℕ → K}
    {psi psi' : ℕ → ℕ → ℕ → K}
    (h : SolvesMultigroup p xsTotal xs external boundary phi psi)
    (h' : SolvesMultigroup p xsTotal xs external boundary phi' psi') :
    ∀ g < p.groups, ∀ i < p.cells, phi i g = phi' i g := by
  have hcut : ∀ {f : ℕ → ℕ → K} {e : ℕ → ℕ → ℕ → K}, SolvesMultigroup p xsTotal xs external boundary f e →
      SolvesMultigroup p xsTotal (fun m g g' => if g ≤ g' then 0 else xs m g g') external boundary f e := by
    intro f e hf
    refine ⟨hf.scalar, fun g hg n hn i hi => ?_, hf.inflow⟩
    rw [hf.balance g hg n hn i hi]
    simp only
    congr 1
    refine sum_congr rfl fun g' hg' => ?_
    by_cases hle : g ≤ g'
    · rw [if_pos hle, hdown _ g hg g' (mem_range.mp hg') hle]
    · rw [if_neg hle]
  exact downscatter_unique p xsTotal _ external boundary hok (fun m g g' hle => if_pos hle) (hcut h) (hcut h')

/-- One pass of the two power iterations, started from fluxes whose coarse-group sums are proportional: so are the
coarse-group sums of the results. -/
theorem flat_pass {p pC : Problem K} (hsame : SameSpace p pC) {xsTotal xsTotalC : ℕ → ℕ → K}
    {scatter xsC fission : ℕ → ℕ → ℕ → K} {coarse : ℕ → ℕ} {factor : ℕ → K}
    (hto : ∀ g < p.groups, coarse g < pC.groups)
    (hflat : ∀ i < p.cells, ∀ g < p.groups, xsTotalC (p.mm i) (coarse g) = xsTotal (p.mm i) g)
    (hxs : ∀ i < p.cells, ∀ c < pC.groups, ∀ g < p.groups,
      xsC (p.mm i) c (coarse g) = ∑ og ∈ fineOf p.groups coarse c, scatter (p.mm i) og g)
    (hfis : ∀ i < p.cells, ∀ g < p.groups, ∀ a < p.groups, ∀ b < p.groups, coarse a = coarse b →
      fission (p.mm i) g a = fission (p.mm i) g b)
    (hcols : ∀ i < p.cells, ∀ g < p.groups, ∀ a < p.groups, ∀ b < p.groups, coarse a = coarse b →
      scatter (p.mm i) g a = scatter (p.mm i) g b)
    (hfac : ∀ c < pC.groups, ∑ g ∈ fineOf p.groups coarse c, factor g = 1)
    (hok : ∀ g < p.groups, SlabOk p xsTotal g) (hokC : ∀ c < pC.groups, SlabOk pC xsTotalC c)
    (huniq : ∀ (src : Arr3 K) (f f' : ℕ → ℕ → K) (e e' : ℕ → ℕ → ℕ → K),
      SolvesMultigroup p xsTotal scatter src zeroBoundary f e →
      SolvesMultigroup p xsTotal scatter src zeroBoundary f' e' → ∀ g < p.groups, ∀ i < p.cells, f i g = f' i g)
    {phi phi' u fluxC flux : ℕ → ℕ → K} {k t : K} {S src : Arr3 K} {psiC psi : ℕ → ℕ → ℕ → K}
    (hphi : ∀ i < p.cells, ∀ c < pC.groups, ∑ g ∈ fineOf p.groups coarse c, phi' i g
      = t * ∑ g ∈ fineOf p.groups coarse c, phi i g)
    (hu : Uncollided p xsTotal fission phi k u)
    (hS : ∀ i < p.cells, ∀ n < p.angles, ∀ c < pC.groups, S.val i (bidx S.angles n) (bidx S.groups c)
      = ∑ g ∈ fineOf p.groups coarse c, ∑ g' ∈ range p.groups, scatter (p.mm i) g g' * u i g')
    (hC : SolvesMultigroup pC xsTotalC xsC S zeroBoundary fluxC psiC)
    (hsrc : ∀ i < p.cells, ∀ n < p.angles, ∀ g < p.groups, src.val i (bidx src.angles n) (bidx src.groups g)
      = (∑ g' ∈ range p.groups, fission (p.mm i) g g' * phi' i g') / k)
    (hP : SolvesMultigroup p xsTotal scatter src zeroBoundary flux psi) :
    ∀ i < p.cells, ∀ c < pC.groups, ∑ g ∈ fineOf p.groups coarse c, flux i g
      = t * ∑ g ∈ fineOf p.groups coarse c, (u i g + fluxC i (coarse g) * factor g) := by
  obtain ⟨psiU, hU⟩ := hu
  obtain ⟨s, hs⟩ : ∃ s : ℕ → ℕ → K, s = fun i g => (∑ g' ∈ range p.groups, fission (p.mm i) g g' * phi i g') / k :=
    ⟨_, rfl⟩
  -- emission depends on the coarse sums only
  have hemit : ∀ i < p.cells, ∀ g < p.groups,
      (∑ g' ∈ range p.groups, fission (p.mm i) g g' * phi' i g') / k = t * s i g := by
    intro i hi g hg
    obtain ⟨b, hb⟩ := by_coarse (fission (p.mm i) g) (hfis i hi g hg)
    rw [hs]
    beta_reduce
    rw [sum_by_coarse hto _ b (phi' i) hb, sum_by_coarse hto _ b (phi i) hb]
    rw [sum_congr rfl fun c hc => by rw [hphi i hi c (mem_range.mp hc)], mul_div, mul_sum]
    congr 1
    exact sum_congr rfl fun c _ => by ring
  -- the uncollided flux, as transport without scattering
  have hU' : SolvesMultigroup p xsTotal (fun _ _ _ => 0) ⟨1, p.groups, fun i _ g => s i g⟩ zeroBoundary u psiU := by
    refine ⟨fun g hg i hi => (hU g hg).1 i hi, fun g hg n hn i hi => ?_, fun g hg => ?_⟩
    · rw [hs]
      simp only [zero_mul, sum_const_zero, zero_add]
      rw [bidx_full _ _ hg]
      exact (hU g hg).2.1 n hn i hi
    · simpa [zeroBoundary] using (hU g hg).2.2
  have hUb := block_solves hsame (xsC := fun _ _ _ => 0) hto hflat (fun i hi c hc g hg => by simp) (s := s)
    (fun i hi n hn g hg => by show s i (bidx p.groups g) = s i g; rw [bidx_full _ _ hg]) hU'
  have hsum : SolvesMultigroup pC xsTotalC xsC
      ⟨1, pC.groups, fun i _ c => ∑ g ∈ fineOf p.groups coarse c, t * s i g⟩ zeroBoundary
      (fun i c => t * ((∑ g ∈ fineOf p.groups coarse c, u i g) + fluxC i c))
      (fun c n i => t * ((∑ g ∈ fineOf p.groups coarse c, psiU g n i) + psiC c n i)) := by
    refine ⟨fun c hc i hi => ?_, fun c hc n hn i hi => ?_, fun c hc n hn => ?_⟩
    · have a := hUb.scalar c hc i hi
      have b := hC.scalar c hc i hi
      rw [a, b]
      unfold scalarCenter
      rw [← sum_add_distrib, mul_sum]
      exact sum_congr rfl fun n _ => by ring
    · have a := hUb.balance c hc n hn i hi
      have b := hC.balance c hc n hn i hi
      have hi' : i < p.cells := hsame.cells ▸ hi
      have hn' : n < p.angles := hsame.angles ▸ hn
      simp only at a b ⊢
      rw [hS i hi' n hn' c hc] at b
      rw [bidx_full _ _ hc] at a ⊢
      simp only [zero_mul, sum_const_zero, zero_add] at a
      have hin : ∑ g ∈ fineOf p.groups coarse c, ∑ g' ∈ range p.groups, scatter (p.mm i) g g' * u i g'
          = ∑ b ∈ range pC.groups, xsC (p.mm i) c b * ∑ g ∈ fineOf p.groups coarse b, u i g := by
        rw [sum_comm]
        simp only [← sum_mul]
        exact sum_by_coarse hto (fun g' => ∑ g ∈ fineOf p.groups coarse c, scatter (p.mm i) g g') (xsC (p.mm i) c)
          (u i) (fun g hg => (hxs i hi' c hc g hg).symm)
      rw [hin] at b
      rw [hsame.mm] at a b ⊢
      have hexp : ∑ b ∈ range pC.groups, xsC (p.mm i) c b * (t * ((∑ g ∈ fineOf p.groups coarse b, u i g) + fluxC i b))
          = t * (∑ b ∈ range pC.groups, xsC (p.mm i) c b * fluxC i b
            + ∑ b ∈ range pC.groups, xsC (p.mm i) c b * ∑ g ∈ fineOf p.groups coarse b, u i g) := by
        rw [← sum_add_distrib, mul_sum]
        exact sum_congr rfl fun b _ => by ring
      rw [hexp, ← mul_sum]
      linear_combination t * a + t * b
    · have a := hUb.inflow c hc n hn
      have b := hC.inflow c hc n hn
      simp only [zeroBoundary, inflow, outflow] at a b ⊢
      split_ifs at a b ⊢ <;> linear_combination t * a + t * b
  have hD : ∀ i, ∀ c < pC.groups, t * ((∑ g ∈ fineOf p.groups coarse c, u i g) + fluxC i c)
      = ∑ g ∈ fineOf p.groups coarse c, t * (u i g + fluxC i (coarse g) * factor g) := by
    intro i c hc
    have e1 : ∀ g ∈ fineOf p.groups coarse c, fluxC i (coarse g) * factor g = fluxC i c * factor g := fun g hg => by
      rw [(mem_fineOf.mp hg).2]
    rw [← mul_sum, sum_add_distrib, sum_congr rfl e1, ← mul_sum, hfac c hc, mul_one]
  -- the fine flux driven by the hybrid scattering
  obtain ⟨q, hq⟩ : ∃ q : ℕ → ℕ → K, q = fun i g => (∑ g' ∈ range p.groups, scatter (p.mm i) g g'
      * (t * (u i g' + fluxC i (coarse g') * factor g'))) + t * s i g := ⟨_, rfl⟩
  have hW := fun g (hg : g < p.groups) => C08_known_source_exists p xsTotal ⟨1, p.groups, fun i _ g => q i g⟩
    zeroBoundary g (hok g hg)
  choose! psiW hpsiW using hW
  obtain ⟨w, hw⟩ : ∃ w : ℕ → ℕ → K, w = fun i g => scalarCenter p.angles p.angleW (psiW g) i := ⟨_, rfl⟩
  have hW0 : SolvesMultigroup p xsTotal (fun _ _ _ => 0) ⟨1, p.groups, fun i _ g => q i g⟩ zeroBoundary w psiW :=
    ⟨fun g _ i _ => by rw [hw], fun g hg n hn i hi => by
      rw [(hpsiW g hg).1 n hn i hi]
      simp, fun g hg => (hpsiW g hg).2⟩
  have hWb := block_solves hsame (xsC := fun _ _ _ => 0) hto hflat (fun i hi c hc g hg => by simp) (s := q)
    (fun i hi n hn g hg => by show q i (bidx p.groups g) = q i g; rw [bidx_full _ _ hg]) hW0
  have hblock : ∀ i < p.cells, ∀ c < pC.groups, ∑ g ∈ fineOf p.groups coarse c, w i g
      = ∑ g ∈ fineOf p.groups coarse c, t * (u i g + fluxC i (coarse g) * factor g) := by
    intro i hi c hc
    have hi' : i < pC.cells := hsame.cells.symm ▸ hi
    have hbal : AllBalanced pC.cells pC.angles pC.angleX pC.dx (fun i => xsTotalC (pC.mm i) c)
        (fun n i => (∑ og ∈ range pC.groups, xsC (pC.mm i) c og
            * (t * ((∑ g ∈ fineOf p.groups coarse og, u i g) + fluxC i og)))
          + ∑ g ∈ fineOf p.groups coarse (bidx pC.groups c), t * s i g)
        (fun n i => ∑ g ∈ fineOf p.groups coarse c, psiW g n i) := by
      intro n hn i hi
      have hi' : i < p.cells := hsame.cells ▸ hi
      rw [hWb.balance c hc n hn i hi]
      simp only [zero_mul, sum_const_zero, zero_add]
      rw [bidx_full _ _ hc, hq, hsame.mm]
      beta_reduce
      rw [sum_add_distrib]
      congr 1
      rw [sum_comm]
      simp only [← sum_mul]
      rw [sum_by_coarse hto (fun g' => ∑ g ∈ fineOf p.groups coarse c, scatter (p.mm i) g g') (xsC (p.mm i) c)
        _ (fun g hg => (hxs i hi' c hc g hg).symm)]
      exact sum_congr rfl fun b hb => by rw [hD i b (mem_range.mp hb)]
    have heq := swept_unique (hokC c hc).nonzero (hokC c hc).phys hbal (hsum.balance c hc) (hWb.inflow c hc)
      (hsum.inflow c hc)
    rw [← hD i c hc]
    have a := hWb.scalar c hc i hi'
    have b := hsum.scalar c hc i hi'
    rw [a, b]
    unfold scalarCenter
    refine sum_congr rfl fun n hn => ?_
    beta_reduce
    rw [heq n (mem_range.mp hn) i hi'.le, heq n (mem_range.mp hn) (i + 1) hi']
  have hWs : SolvesMultigroup p xsTotal scatter src zeroBoundary w psiW := by
    refine ⟨hW0.scalar, fun g hg n hn i hi => ?_, hW0.inflow⟩
    rw [(hpsiW g hg).1 n hn i hi]
    simp only
    rw [bidx_full _ _ hg, hsrc i hi n hn g hg, hemit i hi g hg, hq]
    beta_reduce
    congr 1
    obtain ⟨b, hb⟩ := by_coarse (scatter (p.mm i) g) (hcols i hi g hg)
    rw [sum_by_coarse hto _ b _ hb, sum_by_coarse hto _ b _ hb]
    exact sum_congr rfl fun c hc => by rw [hblock i hi c (mem_range.mp hc)]
  have hsame' := huniq _ _ _ _ _ hP hWs
  intro i hi c hc
  rw [sum_congr rfl fun g hg => hsame' g (mem_fineOf.mp hg).1 i hi, hblock i hi c hc, mul_sum]

/-- The production of a flux only depends on its coarse-group sums. -/
theorem production_blocks {p pC : Problem K} {fission : ℕ → ℕ → ℕ → K} {coarse : ℕ → ℕ}
    (hto : ∀ g < p.groups, coarse g < pC.groups)
    (hfis : ∀ i < p.cells, ∀ g < p.groups, ∀ a < p.groups, ∀ b < p.groups, coarse a = coarse b →
      fission (p.mm i) g a = fission (p.mm i) g b) {f f' : ℕ → ℕ → K} {t : K}
    (h : ∀ i < p.cells, ∀ c < pC.groups, ∑ g ∈ fineOf p.groups coarse c, f i g
      = t * ∑ g ∈ fineOf p.groups coarse c, f' i g) :
    totalProduction p fission f = t * totalProduction p fission f' := by
  unfold totalProduction
  rw [mul_sum]
  refine sum_congr rfl fun i hi => ?_
  rw [mul_sum]
  refine sum_congr rfl fun g hg => ?_
  obtain ⟨b, hb⟩ := by_coarse (fission (p.mm i) g) (hfis i (mem_range.mp hi) g (mem_range.mp hg))
  rw [sum_by_coarse hto _ b _ hb, sum_by_coarse hto _ b _ hb, mul_sum]
  refine sum_congr rfl fun c hc => ?_
  rw [h i (mem_range.mp hi) c (mem_range.mp hc)]
  ring

/-- C193: the coarse groups of a `hybrid_power_iteration` join fine groups with the same total cross section, the
same scattering column and the same fission column, and the collided ordinates are the fine ones.  Then both
`hybrid_power_iteration` and `power_iteration`, started from the same random flux, succeed; and as long as every
inner iteration has been solved and no flux has lost its production, after the same number of passes the two
`keff` are equal and the fluxes, summed over each coarse group, are proportional: the coarse energy grid costs
nothing.  `norm`, `conv` and `convC` are any functions; only the number of passes may differ. -/
theorem C193_flat_groups_same_keff (p : Problem K) (bc : BcX) (gauss : ℕ → List (K × K))
    (convC : (ℕ → ℕ → K) → (ℕ → ℕ → K) → Bool) (norm : (ℕ → ℕ → K) → K)
    (conv : (ℕ → ℕ → K) → (ℕ → ℕ → K) → Bool) (xsTotal : ℕ → ℕ → K) (scatter fission : ℕ → ℕ → ℕ → K)
    (groupsC : ℕ) (grid : EnergyGrid K) (random : ℕ → ℕ → K)
    (hok : ∀ g < p.groups, SlabOk p xsTotal g) (hG : 0 < p.groups) (hgrid : GridFor p.groups groupsC grid)
    (hf : FissionNonneg p.groups (.matrix fission)) (hflat : FlatTotal grid xsTotal (fun _ => 1))
    (hcols : FlatColumns p.groups grid scatter) (hfcols : FlatColumns p.groups grid fission)
    (huniq : ∀ (src : Arr3 K) (f f' : ℕ → ℕ → K) (e e' : ℕ → ℕ → ℕ → K),
      SolvesMultigroup p xsTotal scatter src zeroBoundary f e →
      SolvesMultigroup p xsTotal scatter src zeroBoundary f' e' → ∀ g < p.groups, ∀ i < p.cells, f i g = f' i g) :
    ∃ (pC : Problem K) (xsTotalC : ℕ → ℕ → K) (xsC : ℕ → ℕ → ℕ → K) (coarse : ℕ → ℕ) (factor : ℕ → K) (n m : ℕ)
      (phiH phiP u phiC F : ℕ → ℕ → ℕ → K) (S : ℕ → Arr3 K) (kH kP : ℕ → K),
      hybridPowerCall p bc gauss convC norm conv xsTotal scatter fission p.angles groupsC grid random
        = .ok (⟨phiH n, phiC n, kH n⟩, n) ∧
      powerIteration p norm conv xsTotal (.iso scatter) (.matrix fission) random = .ok (⟨phiP m, kP m⟩, m) ∧
      phiH 0 = phiP 0 ∧ kH 0 = kP 0 ∧ pC.groups = groupsC ∧
      (∀ c < groupsC, SlabOk pC xsTotalC c) ∧
      Collapsed p.groups grid xsTotal scatter (fun _ => 1) xsTotalC xsC (fun _ => 1) coarse factor ∧
      (∀ j < n, Uncollided p xsTotal fission (phiH j) (kH j) (u j) ∧
        kH (j + 1) = kH j * totalProduction p fission (fun i g => u j i g + phiC (j + 1) i (coarse g) * factor g)
          / totalProduction p fission (phiH j) ∧
        ∀ i g, phiH (j + 1) i g = (u j i g + phiC (j + 1) i (coarse g) * factor g)
          / norm (fun i g => u j i g + phiC (j + 1) i (coarse g) * factor g)) ∧
      (∀ a < groupsC, ∀ b < groupsC, ∀ r, (∀ g ∈ Ico (grid.gidxC a) (grid.gidxC (a + 1)),
        ∀ g' ∈ Ico (grid.gidxC b) (grid.gidxC (b + 1)), scatter r g g' = 0) → xsC r a b = 0) ∧
      (∀ j < n, sourceIteration pC xsTotalC (.iso xsC) (S j) zeroBoundary (phiC j) = .ok (phiC (j + 1))) ∧
      (∀ j < m, sourceIteration p xsTotal (.iso scatter)
          (fissionSource p.groups p.mm (.matrix fission) (phiP j) (kP j)) zeroBoundary (phiP j) = .ok (F j) ∧
        kP (j + 1) = kP j * totalProduction p fission (F j) / totalProduction p fission (phiP j) ∧
        ∀ i g, phiP (j + 1) i g = F j i g / norm (F j)) ∧
      ∀ j ≤ n, j ≤ m →
        (∀ l < j, (∃ e, SolvesMultigroup pC xsTotalC xsC (S l) zeroBoundary (phiC (l + 1)) e) ∧
          ∃ e, SolvesMultigroup p xsTotal scatter
            (fissionSource p.groups p.mm (.matrix fission) (phiP l) (kP l)) zeroBoundary (F l) e) →
        (∀ l < j, 0 < l → totalProduction p fission (phiH l) ≠ 0 ∧ totalProduction p fission (phiP l) ≠ 0) →
        kH j = kP j ∧
        (totalProduction p fission (phiH j) ≠ 0 → totalProduction p fission (phiP j) ≠ 0 → ∃ t ≠ 0,
          ∀ i < p.cells, ∀ c < groupsC, ∑ g ∈ Ico (grid.gidxC c) (grid.gidxC (c + 1)), phiP j i g
            = t * ∑ g ∈ Ico (grid.gidxC c) (grid.gidxC (c + 1)), phiH j i g) := by
  obtain ⟨pC, xsTotalC, xsC, coarse, factor, hcall, hxw, hgr, han, hce, hdx, hmm, hl, hr, hslab, hcol⟩ :=
    hybridPowerCall_eq p bc gauss convC norm conv xsTotal scatter fission p.angles groupsC grid random hok hG hgrid
      (Or.inl rfl)
  have hslab' : ∀ c < pC.groups, SlabOk pC xsTotalC c := by rw [hgr]; exact hslab
  have hang : pC.angleX = p.angleX ∧ pC.angleW = p.angleW := by
    unfold collidedAngles at hxw
    rw [if_pos rfl] at hxw
    have := Except.ok.inj hxw
    exact ⟨(congrArg Prod.fst this).symm, (congrArg Prod.snd this).symm⟩
  have hsame : SameSpace p pC := ⟨hce, han, hdx, hmm, hang.1, hang.2, hl, hr⟩
  have hnum : pC.groups = grid.coarseGroups := hgr.trans hgrid.number
  have hto : ∀ g < p.groups, coarse g < pC.groups := fun g hg => by rw [hnum]; exact (hcol.block g hg).1
  have hfil : ∀ c < pC.groups, fineOf p.groups coarse c = Ico (grid.gidxC c) (grid.gidxC (c + 1)) :=
    fun c hc => block_filter hgrid hcol (hnum ▸ hc)
  have hrow : ∀ {xs : ℕ → ℕ → ℕ → K}, FlatColumns p.groups grid xs → ∀ i < p.cells, ∀ g < p.groups,
      ∀ a < p.groups, ∀ b < p.groups, coarse a = coarse b → xs (p.mm i) g a = xs (p.mm i) g b := by
    intro xs h i _ g hg a ha b hb hab
    have h1 := hcol.block a ha
    have h2 := hcol.block b hb
    rw [← hab] at h2
    exact h _ h1.1 a b h1.2 h2.2 (p.mm i) g hg
  have hfac : ∀ c < pC.groups, ∑ g ∈ fineOf p.groups coarse c, factor g = 1 := fun c hc =>
    block_factor_sum hgrid hcol (hnum ▸ hc)
  have hxs : ∀ i < p.cells, ∀ c < pC.groups, ∀ g < p.groups,
      xsC (p.mm i) c (coarse g) = ∑ og ∈ fineOf p.groups coarse c, scatter (p.mm i) og g := by
    intro i hi c hc g hg
    rw [block_transfer hgrid hcol (hnum ▸ hc) (hnum ▸ hto g hg)]
    refine sum_congr rfl fun og hog => ?_
    have h1 : ∀ ig ∈ (range p.groups).filter (fun g' => coarse g' = coarse g), scatter (p.mm i) og ig * factor ig
        = scatter (p.mm i) og g * factor ig := fun ig hig => by
      rw [hrow hcols i hi og (mem_fineOf.mp hog).1 ig (mem_range.mp (mem_filter.mp hig).1) g hg
        (mem_filter.mp hig).2]
    have h2 := hfac (coarse g) (hto g hg)
    unfold fineOf at h2
    rw [sum_congr rfl h1, ← mul_sum, h2, mul_one]
  obtain ⟨x, n, hrunH, heH⟩ := C27_hybrid_stops p pC norm conv xsTotal xsTotalC scatter xsC fission coarse factor
    random hok hG hslab'
  obtain ⟨y, m, hrunP, heP⟩ := C27_power_iteration_stops p norm conv xsTotal (.iso scatter) (.matrix fission)
    random hok
  have hstepH : ∀ j < n, ∃ u : ℕ → ℕ → K, Uncollided p xsTotal fission (x j).flux (x j).keff u ∧
      sourceIteration pC xsTotalC (.iso xsC)
        ⟨1, pC.groups, fun i _ c => hybridSourceCollided p.groups u scatter p.mm coarse i c⟩ zeroBoundary
        (x j).fluxC = .ok (x (j + 1)).fluxC ∧
      (x (j + 1)).keff = (x j).keff
        * totalProduction p fission (fun i g => u i g + (x (j + 1)).fluxC i (coarse g) * factor g)
        / totalProduction p fission (x j).flux ∧
      (x (j + 1)).flux = normalise norm (fun i g => u i g + (x (j + 1)).fluxC i (coarse g) * factor g) := by
    intro j hj
    obtain ⟨u, fluxC, h1, h2, h3⟩ := hybridStep_ok p pC norm xsTotal xsTotalC scatter xsC fission coarse factor hok
      hG hslab' (x j)
    rw [hrunH.steps j hj] at h3
    have h3 := Except.ok.inj h3
    refine ⟨u, uncollided_of hok hf h1, ?_, ?_, ?_⟩
    · rw [h3]; exact h2
    · rw [h3]; exact updateKeff_eq p (.matrix fission) hf _ _ _
    · rw [h3]
  choose! u hu hsi hkH hnH using hstepH
  have hstepP : ∀ j < m, ∃ F : ℕ → ℕ → K, sourceIteration p xsTotal (.iso scatter)
        (fissionSource p.groups p.mm (.matrix fission) (y j).flux (y j).keff) zeroBoundary (y j).flux = .ok F ∧
      (y (j + 1)).keff = (y j).keff * totalProduction p fission F / totalProduction p fission (y j).flux ∧
      (y (j + 1)).flux = normalise norm F := by
    intro j hj
    obtain ⟨F, h1, h2⟩ := powerStep_ok p norm xsTotal (.iso scatter) (.matrix fission) hok (y j)
    rw [hrunP.steps j hj] at h2
    have h2 := Except.ok.inj h2
    refine ⟨F, h1, ?_, ?_⟩
    · rw [h2]; exact updateKeff_eq p (.matrix fission) hf _ _ _
    · rw [h2]
  choose! F hF hkP hnP using hstepP
  refine ⟨pC, xsTotalC, xsC, coarse, factor, n, m, fun j => (x j).flux, fun j => (y j).flux, u, fun j => (x j).fluxC, F,
    fun j => ⟨1, pC.groups, fun i _ c => hybridSourceCollided p.groups (u j) scatter p.mm coarse i c⟩,
    fun j => (x j).keff, fun j => (y j).keff, hcall.trans heH, heP, ?_, ?_, hgr, hslab, hcol,
    fun j hj => ⟨hu j hj, hkH j hj, fun i g => ?_⟩, ?_, hsi,
    fun j hj => ⟨hF j hj, hkP j hj, fun i g => ?_⟩, ?_⟩
  · beta_reduce; rw [hrunH.start, hrunP.start]
  · beta_reduce; rw [hrunH.start, hrunP.start]
  · beta_reduce; rw [hnH j hj]; rfl
  · intro a ha b hb r hz
    rw [← hgr] at ha hb
    rw [block_transfer hgrid hcol (hnum ▸ ha) (hnum ▸ hb)]
    refine sum_eq_zero fun og hog => sum_eq_zero fun ig hig => ?_
    have h1 : og ∈ fineOf p.groups coarse a := hog
    have h2 : ig ∈ fineOf p.groups coarse b := hig
    rw [hfil a ha] at h1
    rw [hfil b hb] at h2
    rw [hz og h1 ig h2, zero_mul]
  · beta_reduce; rw [hnP j hj]; rfl
  -- the invariant
  have main : ∀ j ≤ n, j ≤ m →
      (∀ l < j, (∃ e, SolvesMultigroup pC xsTotalC xsC
          ⟨1, pC.groups, fun i _ c => hybridSourceCollided p.groups (u l) scatter p.mm coarse i c⟩ zeroBoundary
          (x (l + 1)).fluxC e) ∧
        ∃ e, SolvesMultigroup p xsTotal scatter
          (fissionSource p.groups p.mm (.matrix fission) (y l).flux (y l).keff) zeroBoundary (F l) e) →
      (∀ l < j, 0 < l → totalProduction p fission (x l).flux ≠ 0 ∧ totalProduction p fission (y l).flux ≠ 0) →
      (x j).keff = (y j).keff ∧
      (totalProduction p fission (x j).flux ≠ 0 ∧ totalProduction p fission (y j).flux ≠ 0 ∨ j = 0 → ∃ t ≠ 0,
        ∀ i < p.cells, ∀ c < pC.groups, ∑ g ∈ fineOf p.groups coarse c, (y j).flux i g
          = t * ∑ g ∈ fineOf p.groups coarse c, (x j).flux i g) := by
    intro j
    induction j with
    | zero =>
      intro _ _ _ _
      rw [hrunH.start, hrunP.start]
      exact ⟨rfl, fun _ => ⟨1, one_ne_zero, fun i _ c _ => (one_mul _).symm⟩⟩
    | succ j ih =>
      intro hn hm hsol hprod
      obtain ⟨hk, hblk⟩ := ih (by omega) (by omega) (fun l hl => hsol l (by omega)) (fun l hl => hprod l (by omega))
      obtain ⟨t, ht, hblk⟩ := hblk (by
        rcases Nat.eq_zero_or_pos j with h | h
        · exact Or.inr h
        · exact Or.inl (hprod j (by omega) h))
      obtain ⟨⟨eC, hC⟩, ⟨eP, hP⟩⟩ := hsol j (by omega)
      have hpass := flat_pass hsame (factor := factor) hto
        (fun i _ g hg => (flat_total hgrid hcol hflat hg).1 (p.mm i)) hxs (hrow hfcols) (hrow hcols) hfac hok hslab'
        huniq hblk (hu j (by omega))
        (fun i _ n _ c hc => by
          show hybridSourceCollided p.groups (u j) scatter p.mm coarse i (bidx pC.groups c) = _
          rw [bidx_full _ _ hc]
          exact C38_group p.groups (u j) scatter p.mm coarse i c) hC
        (fun i _ n _ g hg => by
          rw [fissionSource_val p (.matrix fission) hf _ _ _ _ _ hg, hk]; rfl) hP
      have hP1 := production_blocks hto (hrow hfcols) hblk
      have hP2 := production_blocks hto (hrow hfcols) hpass
      refine ⟨?_, fun hne => ?_⟩
      · rw [hkH j (by omega), hkP j (by omega), hP1, hP2, hk, mul_left_comm, mul_div_mul_left _ _ ht]
      · obtain ⟨h1, h2⟩ := hne.resolve_right (by omega)
        rw [hnH j (by omega)] at h1 ⊢
        rw [hnP j (by omega)] at h2 ⊢
        have norm_ne : ∀ f : ℕ → ℕ → K, totalProduction p fission (normalise norm f) ≠ 0 → norm f ≠ 0 := by
          intro f h h0
          refine h ?_
          unfold totalProduction normalise
          refine sum_eq_zero fun i _ => sum_eq_zero fun g _ => sum_eq_zero fun g' _ => ?_
          rw [h0, div_zero, mul_zero]
        have n1 := norm_ne _ h1
        have n2 := norm_ne _ h2
        refine ⟨t * norm (fun i g => u j i g + (x (j + 1)).fluxC i (coarse g) * factor g) / norm (F j),
          div_ne_zero (mul_ne_zero ht n1) n2, fun i hi c hc => ?_⟩
        simp only [normalise]
        rw [← sum_div, ← sum_div, hpass i hi c hc]
        field_simp
  intro j hn hm hsol hprod
  obtain ⟨h1, h2⟩ := main j hn hm hsol hprod
  refine ⟨h1, fun a b => ?_⟩
  obtain ⟨t, ht, h3⟩ := h2 (Or.inl ⟨a, b⟩)
  refine ⟨t, ht, fun i hi c hc => ?_⟩
  have hc : c < pC.groups := hgr ▸ hc
  rw [← hfil c hc]
  exact h3 i hi c hc

/-- C193 without any condition on the inner iterations: no group scatters into itself or into a lower-numbered one. -/
theorem C193_flat_groups_same_keff_downscatter (p : Problem K) (bc : BcX) (gauss : ℕ → List (K × K))
    (convC : (ℕ → ℕ → K) → (ℕ → ℕ → K) → Bool) (norm : (ℕ → ℕ → K) → K)
    (conv : (ℕ → ℕ → K) → (ℕ → ℕ → K) → Bool) (xsTotal : ℕ → ℕ → K) (scatter fission : ℕ → ℕ → ℕ → K)
    (groupsC : ℕ) (grid : EnergyGrid K) (random : ℕ → ℕ → K)
    (hok : ∀ g < p.groups, SlabOk p xsTotal g) (hG : 0 < p.groups) (hgrid : GridFor p.groups groupsC grid)
    (hf : FissionNonneg p.groups (.matrix fission)) (hflat : FlatTotal grid xsTotal (fun _ => 1))
    (hcols : FlatColumns p.groups grid scatter) (hfcols : FlatColumns p.groups grid fission)
    (hdown : ∀ m g g', g ≤ g' → scatter m g g' = 0) :
    ∃ (n m : ℕ) (phiH phiP phiC : ℕ → ℕ → ℕ → K) (kH kP : ℕ → K),
      hybridPowerCall p bc gauss convC norm conv xsTotal scatter fission p.angles groupsC grid random
        = .ok (⟨phiH n, phiC n, kH n⟩, n) ∧
      powerIteration p norm conv xsTotal (.iso scatter) (.matrix fission) random = .ok (⟨phiP m, kP m⟩, m) ∧
      (∀ j < m, ∃ F, sourceIteration p xsTotal (.iso scatter)
          (fissionSource p.groups p.mm (.matrix fission) (phiP j) (kP j)) zeroBoundary (phiP j) = .ok F ∧
        kP (j + 1) = kP j * totalProduction p fission F / totalProduction p fission (phiP j) ∧
        ∀ i g, phiP (j + 1) i g = F i g / norm F) ∧
      ∀ j ≤ n, j ≤ m →
        (∀ l < j, 0 < l → totalProduction p fission (phiH l) ≠ 0 ∧ totalProduction p fission (phiP l) ≠ 0) →
        kH j = kP j ∧
        (totalProduction p fission (phiH j) ≠ 0 → totalProduction p fission (phiP j) ≠ 0 → ∃ t ≠ 0,
          ∀ i < p.cells, ∀ c < groupsC, ∑ g ∈ Ico (grid.gidxC c) (grid.gidxC (c + 1)), phiP j i g
            = t * ∑ g ∈ Ico (grid.gidxC c) (grid.gidxC (c + 1)), phiH j i g) := by
  obtain ⟨pC, xsTotalC, xsC, coarse, factor, n, m, phiH, phiP, u, phiC, F, S, kH, kP, h1, h2, h3, h4, h5, h6, h7,
    h8, h9, h10, h11, h12⟩ := C193_flat_groups_same_keff p bc gauss convC norm conv xsTotal scatter fission groupsC
      grid random hok hG hgrid hf hflat hcols hfcols
      (fun src f f' e e' a b => downscatter_unique p xsTotal scatter src zeroBoundary hok hdown a b)
  refine ⟨n, m, phiH, phiP, phiC, kH, kP, h1, h2, fun j hj => ⟨F j, h11 j hj⟩, fun j hn hm hprod =>
    h12 j hn hm (fun l hl => ⟨?_, ?_⟩) hprod⟩
  · obtain ⟨phi, e, k1, k2⟩ := downscatter_exact_local pC xsTotalC xsC (S l) zeroBoundary (phiC l)
      (h5.symm ▸ h6) (fun r a ha b hb hab => by
        rw [h5] at ha hb
        refine h9 a ha b hb r fun og hog ig hig => ?_
        have ha' := hgrid.number ▸ ha
        have hb' := hgrid.number ▸ hb
        have hogG : og < p.groups := lt_of_lt_of_le (mem_Ico.mp hog).2 (by
          have := hgrid.coarse.mono (i := a + 1) (j := grid.coarseGroups) (by omega) le_rfl
          rwa [hgrid.coarse.last] at this)
        rcases Nat.lt_or_ge a b with hlt | hge
        · have := hgrid.coarse.mono (i := a + 1) (j := b) (by omega) (by omega)
          have h1 := (mem_Ico.mp hog).2
          have h2 := (mem_Ico.mp hig).1
          exact hdown r og ig (by omega)
        · have : a = b := by omega
          subst this
          rw [hcols a ha' ig og (mem_Ico.mp hig) (mem_Ico.mp hog) r og hogG]
          exact hdown r og og le_rfl)
    rw [h10 l (by omega)] at k1
    rw [Except.ok.inj k1]
    exact ⟨e, k2⟩
  · obtain ⟨phi, e, k1, k2⟩ := downscatter_exact_local p xsTotal scatter
      (fissionSource p.groups p.mm (.matrix fission) (phiP l) (kP l)) zeroBoundary (phiP l) hok
      (fun r g _ g' _ hle => hdown r g g' hle)
    rw [(h11 l (by omega)).1] at k1
    rw [Except.ok.inj k1]
    exact ⟨e, k2⟩

/-! ## C194 -/

/-- A width-weighted mean obeys every bound its terms obey. -/
theorem collapsed_fine {p : Problem K} {groupsC : ℕ} {grid : EnergyGrid K} (hgrid : GridFor p.groups groupsC grid)
    {xsTotal xsTotalC : ℕ → ℕ → K} {xs xsC : ℕ → ℕ → ℕ → K} {velocity velocityC : ℕ → K} {coarse : ℕ → ℕ}
    {factor : ℕ → K} (h : Collapsed p.groups grid xsTotal xs velocity xsTotalC xsC velocityC coarse factor)
    {mu : K} (hdx : ∀ i < p.cells, 0 < p.dx i)
    (hfine : ∀ g < p.groups, FineFor p.cells mu p.dx (fun i => xsTotal (p.mm i) g)) {c : ℕ}
    (hc : c < grid.coarseGroups) : FineFor p.cells mu p.dx (fun i => xsTotalC (p.mm i) c) := by
  obtain ⟨N, hE, hF⟩ := hgrid.increasing
  have hinc := increasing_comp hE hF
  have hw := width_pos hgrid hc
  have hst := hgrid.coarse.strict c hc
  have hin : ∀ g ∈ Ico (grid.gidxC c) (grid.gidxC (c + 1)), g < p.groups :=
    fun g hg => lt_of_lt_of_le (mem_Ico.mp hg).2 (by
      have := hgrid.coarse.mono (i := c + 1) (j := grid.coarseGroups) (by omega) le_rfl
      rwa [hgrid.coarse.last] at this)
  intro i hi
  have hd := hdx i hi
  beta_reduce
  rw [← le_div_iff₀ hd]
  refine le_of_mul_le_mul_right ?_ hw
  rw [h.total c hc, ← sum_Ico_sub (fun g => grid.edges (grid.gidxU g)) hst.le, mul_sum]
  refine sum_le_sum fun g hg => ?_
  refine mul_le_mul_of_nonneg_right ?_ (sub_nonneg.mpr (hinc g (hin g hg)).le)
  rw [le_div_iff₀ hd]
  exact hfine g (hin g hg) i hi

/-- C194: `hybrid_power_iteration` with any admissible coarse grid and coarse quadrature, started from a
non-negative random flux, on a mesh that is fine for the fine totals in every fine and every collided direction,
with non-negative scattering and fission: in every pass the combined flux, the collided flux and `keff` are
non-negative, however early the inner iterations stop. -/
theorem C194_hybrid_power_nonneg (p : Problem K) (bc : BcX) (gauss : ℕ → List (K × K))
    (convC : (ℕ → ℕ → K) → (ℕ → ℕ → K) → Bool) (norm : (ℕ → ℕ → K) → K)
    (conv : (ℕ → ℕ → K) → (ℕ → ℕ → K) → Bool) (xsTotal : ℕ → ℕ → K) (scatter fission : ℕ → ℕ → ℕ → K)
    (anglesC groupsC : ℕ) (grid : EnergyGrid K) (random : ℕ → ℕ → K)
    (hok : ∀ g < p.groups, SlabOk p xsTotal g) (hG : 0 < p.groups) (hgrid : GridFor p.groups groupsC grid)
    (hang : AnglesFor p bc gauss anglesC) (hf : FissionNonneg p.groups (.matrix fission))
    (hs : ∀ m, ∀ g < p.groups, ∀ g' < p.groups, 0 ≤ scatter m g g')
    (hfine : ∀ g < p.groups, ∀ n < p.angles, FineFor p.cells (p.angleX n) p.dx (fun i => xsTotal (p.mm i) g))
    (hw : ∀ n < p.angles, 0 ≤ p.angleW n)
    (hfineC : ∀ x w, collidedAngles p bc gauss anglesC = .ok (x, w) → ∀ n < anglesC, 0 ≤ w n ∧
      ∀ g < p.groups, FineFor p.cells (x n) p.dx (fun i => xsTotal (p.mm i) g))
    (hnorm : ∀ f, 0 ≤ norm f) (hrandom : ∀ i < p.cells, ∀ g < p.groups, 0 ≤ random i g) :
    ∃ (n : ℕ) (phi phiC : ℕ → ℕ → ℕ → K) (k : ℕ → K),
      hybridPowerCall p bc gauss convC norm conv xsTotal scatter fission anglesC groupsC grid random
        = .ok (⟨phi n, phiC n, k n⟩, n) ∧
      phi 0 = (start norm random).flux ∧ k 0 = (start norm random).keff ∧
      (∀ j < n, ∃ F : ℕ → ℕ → K, k (j + 1) = k j * totalProduction p fission F / totalProduction p fission (phi j) ∧
        (∀ i g, phi (j + 1) i g = F i g / norm F) ∧ ∀ i < p.cells, ∀ g < p.groups, 0 ≤ F i g) ∧
      ∀ j ≤ n, 0 ≤ k j ∧ (∀ i < p.cells, ∀ g < p.groups, 0 ≤ phi j i g) ∧
        ∀ i < p.cells, ∀ c < groupsC, 0 ≤ phiC j i c := by
  obtain ⟨pC, xsTotalC, xsC, coarse, factor, n, phi, phiC, k, hcall, hn1, hn2, hgr, han, hce, hdx, hmm, hl, hr, hxw,
    hslab, hcol, h0, hk0, hC0, _, _, hstep⟩ := C135_hybrid_power_passes p bc gauss convC norm conv xsTotal scatter
      fission anglesC groupsC grid random hok hG hgrid hang hf
  have hnum : groupsC = grid.coarseGroups := hgrid.number
  have hcells : ∀ i < p.cells, 0 < p.dx i := fun i hi => ((hok 0 hG).phys i hi).1
  have hF : EmissionNonneg p fission := fun i _ g hg g' hg' => hf (p.mm i) g hg g' hg'
  obtain ⟨N, hE, hFg⟩ := hgrid.increasing
  have hinc := increasing_comp hE hFg
  have hfac : ∀ g < p.groups, 0 ≤ factor g := fun g hg => by
    have h1 := hcol.share g hg
    have h2 := width_pos hgrid (hcol.block g hg).1
    have h3 : 0 ≤ factor g * (grid.edges (grid.gidxU (grid.gidxC (coarse g + 1)))
      - grid.edges (grid.gidxU (grid.gidxC (coarse g)))) := by
      rw [h1]; exact sub_nonneg.mpr (hinc g hg).le
    exact nonneg_of_mul_nonneg_left h3 h2
  have hxsC : ∀ m, ∀ a < groupsC, ∀ b < groupsC, 0 ≤ xsC m a b := fun m a ha b hb => by
    rw [block_transfer hgrid hcol (hnum ▸ ha) (hnum ▸ hb)]
    exact sum_nonneg fun og hog => sum_nonneg fun ig hig =>
      mul_nonneg (hs m og (mem_range.mp (mem_filter.mp hog).1) ig (mem_range.mp (mem_filter.mp hig).1))
        (hfac ig (mem_range.mp (mem_filter.mp hig).1))
  have hCn := hfineC _ _ hxw
  have hslab' : ∀ c < pC.groups, SlabOk pC xsTotalC c := by rw [hgr]; exact hslab
  -- one pass
  have pass : ∀ j < n, 0 ≤ k j → (∀ i < p.cells, ∀ g < p.groups, 0 ≤ phi j i g) →
      (∀ i < p.cells, ∀ c < groupsC, 0 ≤ phiC j i c) →
      (∃ F : ℕ → ℕ → K, k (j + 1) = k j * totalProduction p fission F / totalProduction p fission (phi j) ∧
        (∀ i g, phi (j + 1) i g = F i g / norm F) ∧ ∀ i < p.cells, ∀ g < p.groups, 0 ≤ F i g) ∧
      ∀ i < p.cells, ∀ c < groupsC, 0 ≤ phiC (j + 1) i c := by
    intro j hj hk hphi hphiC
    obtain ⟨u, S, ⟨psi, hu⟩, hS, hsi, hk', hphi'⟩ := hstep j hj
    have hun : ∀ i < p.cells, ∀ g < p.groups, 0 ≤ u i g := by
      intro i hi g hg
      obtain ⟨u1, u2, u3⟩ := hu g hg
      have hpos := swept_nonneg (hok g hg).nonzero (hok g hg).phys (hfine g hg) u2 u3
        (fun n _ i hi => div_nonneg (sum_nonneg fun g' hg' =>
          mul_nonneg (hF i hi g hg g' (mem_range.mp hg')) (hphi i hi g' (mem_range.mp hg'))) hk)
        (fun _ _ _ => le_refl _) (fun _ _ _ => le_refl _)
      rw [u1 i hi]
      refine sum_nonneg fun n hn => mul_nonneg (hw n (mem_range.mp hn)) ?_
      have h0 := hpos n (mem_range.mp hn) i hi.le
      have h1 := hpos n (mem_range.mp hn) (i + 1) hi
      linarith
    have hSn : ∀ i < p.cells, ∀ c, 0 ≤ S i c := fun i hi c => by
      rw [hS i c]
      exact sum_nonneg fun g hg => sum_nonneg fun g' hg' =>
        mul_nonneg (hs _ g (mem_range.mp (mem_filter.mp hg).1) g' (mem_range.mp hg')) (hun i hi g' (mem_range.mp hg'))
    obtain ⟨o, ho, hon⟩ := C16_source_iteration_nonneg pC xsTotalC xsC ⟨1, groupsC, fun i _ c => S i c⟩
      ⟨1, 1, fun _ _ _ => 0⟩ (phiC j) hslab' (by
        have := (hcol.block 0 hG).1
        exact (hslab (coarse 0) (hnum ▸ this)).slab)
      (fun c hc n hn => by
        rw [hgr] at hc
        rw [han] at hn
        rw [hce, hdx, hmm]
        exact collapsed_fine hgrid hcol hcells (fun g hg => (hCn n hn).2 g hg) (hnum ▸ hc))
      (fun c hc => ⟨fun n hn => by rw [han] at hn; exact (hCn n hn).1, fun n hn i hi => hSn i (hce ▸ hi) _,
        fun _ _ _ => le_refl _, fun _ _ _ => le_refl _⟩)
      (fun i _ c hc c' hc' => hxsC _ c (hgr ▸ hc) c' (hgr ▸ hc'))
      (fun i hi c hc => hphiC i (hce ▸ hi) c (hgr ▸ hc))
    have heq : o = phiC (j + 1) := by rw [hsi] at ho; exact (Except.ok.inj ho).symm
    subst heq
    rw [hce, hgr] at hon
    exact ⟨⟨_, hk', hphi', fun i hi g hg => add_nonneg (hun i hi g hg)
      (mul_nonneg (hon i hi _ (hnum ▸ (hcol.block g hg).1)) (hfac g hg))⟩, hon⟩
  have main : ∀ j ≤ n, 0 ≤ k j ∧ (∀ i < p.cells, ∀ g < p.groups, 0 ≤ phi j i g) ∧
      ∀ i < p.cells, ∀ c < groupsC, 0 ≤ phiC j i c := by
    intro j
    induction j with
    | zero =>
      intro _
      rw [h0, hk0, hC0]
      exact ⟨hnorm _, fun i hi g hg => div_nonneg (hrandom i hi g hg) (abs_nonneg _), fun _ _ _ _ => le_refl _⟩
    | succ j ih =>
      intro hj
      obtain ⟨a, b, c⟩ := ih (by omega)
      obtain ⟨⟨F, f1, f2, f3⟩, f4⟩ := pass j (by omega) a b c
      refine ⟨?_, fun i hi g hg => ?_, f4⟩
      · rw [f1]
        exact div_nonneg (mul_nonneg a (totalProduction_nonneg hF f3)) (totalProduction_nonneg hF b)
      · rw [f2]; exact div_nonneg (f3 i hi g hg) (hnorm _)
  refine ⟨n, phi, phiC, k, hcall, h0, hk0, fun j hj => ?_, main⟩
  obtain ⟨a, b, c⟩ := main j hj.le
  exact (pass j hj a b c).1

/-! ### Example: three groups, the first two of them alike, fissions of every group emitting into the first two -/

def exThreeBorn : ℕ → ℕ → ℕ → ℚ := fun _ g g' => if g < 2 then (if g' < 2 then 1 / 2 else 1) else 0

theorem exThreeBornNonneg : FissionNonneg exThree.groups (.matrix exThreeBorn) := by
  intro m o _ i _
  show 0 ≤ exThreeBorn m o i
  unfold exThreeBorn
  split_ifs <;> norm_num

theorem exThreeFine : ∀ g < exThree.groups, ∀ n < exThree.angles,
    FineFor exThree.cells (exThree.angleX n) exThree.dx (fun i => exThreeTotal (exThree.mm i) g) := by
  intro g _ n hn i _
  have h1 := exFine_mu n hn
  have hm : exFine.mm i ≤ 1 := by
    show (if i = 1 then 1 else 0) ≤ 1
    split <;> omega
  have hm' : ((exFine.mm i : ℕ) : ℚ) ≤ 1 := by exact_mod_cast hm
  have hb : exThreeTotal (exFine.mm i) g ≤ 3 := by
    unfold exThreeTotal; split_ifs <;> linarith
  have h2 : 1 / 4 ≤ |exThree.angleX n| := h1
  show exThreeTotal (exFine.mm i) g * (1 / 16 : ℚ) ≤ _
  linarith

theorem exThreeFlat1 : FlatTotal exThreeGrid exThreeTotal (fun _ => 1) := ⟨exThreeFlat.total, fun _ _ _ _ _ _ => rfl⟩

theorem exThreeScatterColumns : FlatColumns exThree.groups exThreeGrid exThreeScatter := by
  intro c hc g g' h h' m k _
  rcases exThreeBlock hc h with ⟨a, b⟩ | ⟨a, b⟩ <;> rcases exThreeBlock hc h' with ⟨a', b'⟩ | ⟨a', b'⟩
  · simp only [exThreeScatter, b, b', and_true]
  · omega
  · omega
  · rw [b, b']

theorem exThreeBornColumns : FlatColumns exThree.groups exThreeGrid exThreeBorn := by
  intro c hc g g' h h' m k _
  rcases exThreeBlock hc h with ⟨a, b⟩ | ⟨a, b⟩ <;> rcases exThreeBlock hc h' with ⟨a', b'⟩ | ⟨a', b'⟩
  · simp only [exThreeBorn, b, b', if_true]
  · omega
  · omega
  · rw [b, b']

example (conv convC : (ℕ → ℕ → ℚ) → (ℕ → ℕ → ℚ) → Bool) := C193_flat_groups_same_keff exThree (.list 1 0)
  (fun _ => []) convC (fun f => |f 0 0| + |f 1 1|) conv exThreeTotal exThreeScatter exThreeBorn 2 exThreeGrid
  (fun i g => (i + g + 1 : ℕ)) (fun g _ => exThreeOk g) (by show 0 < 3; omega) exThreeGridFor exThreeBornNonneg exThreeFlat1
  exThreeScatterColumns exThreeBornColumns
  (fun src f f' e e' a b => downscatter_unique exThree exThreeTotal exThreeScatter src zeroBoundary
    (fun g _ => exThreeOk g) (fun m g g' h => by
      simp only [exThreeScatter, if_neg (show ¬ (g = 2 ∧ g' < 2) by omega)]) a b)

example (conv convC : (ℕ → ℕ → ℚ) → (ℕ → ℕ → ℚ) → Bool) := C193_flat_groups_same_keff_downscatter exThree
  (.list 1 0) (fun _ => []) convC (fun f => |f 0 0| + |f 1 1|) conv exThreeTotal exThreeScatter exThreeBorn 2
  exThreeGrid (fun i g => (i + g + 1 : ℕ)) (fun g _ => exThreeOk g) (by show 0 < 3; omega) exThreeGridFor
  exThreeBornNonneg exThreeFlat1 exThreeScatterColumns exThreeBornColumns (fun m g g' h => by
      simp only [exThreeScatter, if_neg (show ¬ (g = 2 ∧ g' < 2) by omega)])

example (conv convC : (ℕ → ℕ → ℚ) → (ℕ → ℕ → ℚ) → Bool) := C194_hybrid_power_nonneg exThree (.list 1 0)
  (fun _ => []) convC (fun f => |f 0 0| + |f 1 1|) conv exThreeTotal exThreeScatter exThreeBorn 4 2 exThreeGrid
  (fun i g => (i + g + 1 : ℕ)) (fun g _ => exThreeOk g) (by show 0 < 3; omega) exThreeGridFor (Or.inl rfl)
  exThreeBornNonneg (fun m g _ g' _ => by unfold exThreeScatter; split_ifs <;> norm_num) exThreeFine
  (fun n _ => by show (0 : ℚ) ≤ 1 / 4; norm_num)
  (fun x w h n hn => by
    have h1 : (exThree.angleX, exThree.angleW) = (x, w) := Except.ok.inj h
    obtain ⟨rfl, rfl⟩ := Prod.mk.inj h1
    exact ⟨by show (0 : ℚ) ≤ 1 / 4; norm_num, fun g hg => exThreeFine g hg n hn⟩)
  (fun f => by positivity) (fun i _ g _ => by positivity)

end Discrete1.Props
