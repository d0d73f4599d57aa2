import Verif.Props.KeffData

/-!
# C219: uncertain data and repeated scattering
-/

set_option linter.unusedSectionVars false
set_option linter.unusedSimpArgs false

namespace Discrete1.Props

open Finset Discrete1.Spec Discrete1.Slab Discrete1.Tools Discrete1.MultiGroup Discrete1.Drivers Discrete1.Critical

variable {K : Type} [Field K] [LinearOrder K] [IsStrictOrderedRing K]

/-- The source that the flux `f` emits by scattering, added to the external source. -/
def emitted (p : Problem K) (xs : ℕ → ℕ → ℕ → K) (ext : Arr3 K) (f : ℕ → ℕ → K) : Arr3 K :=
  ⟨p.angles, p.groups, fun i n g => ∑ og ∈ range p.groups, xs (p.mm i) g og * f i og + sourceAt ext i n g⟩

theorem sourceAt_emitted (p : Problem K) (xs : ℕ → ℕ → ℕ → K) (ext : Arr3 K) (f : ℕ → ℕ → K) {i n g : ℕ}
    (hn : n < p.angles) (hg : g < p.groups) : sourceAt (emitted p xs ext f) i n g
      = ∑ og ∈ range p.groups, xs (p.mm i) g og * f i og + sourceAt ext i n g := by
  simp only [sourceAt, emitted, ← bidx.eq_1]
  rw [bidx_full _ _ hn, bidx_full _ _ hg]

/-- A solution answers the purely absorbing problem with its own scattering source. -/
theorem solves_emitted {p : Problem K} {sigma : ℕ → ℕ → K} {xs : ℕ → ℕ → ℕ → K} {ext bnd : Arr3 K}
    {phi : ℕ → ℕ → K} {psi : ℕ → ℕ → ℕ → K} (h : SolvesMultigroup p sigma xs ext bnd phi psi) :
    SolvesMultigroup p sigma (fun _ _ _ => 0) (emitted p xs ext phi) bnd phi psi := by
  refine ⟨h.scalar, fun g hg n hn i hi => ?_, h.inflow⟩
  have h1 := h.balance g hg n hn i hi
  have e := sourceAt_emitted p xs ext phi (i := i) hn hg
  beta_reduce at h1 ⊢
  simp only [zero_mul, sum_const_zero, zero_add]
  exact h1.trans e.symm

/-- Comparison of three answers of the purely absorbing problem. -/
theorem absorbing_combo {p : Problem K} {sigma : ℕ → ℕ → K} {E1 E2 E3 bnd : Arr3 K} {a b f : ℕ → ℕ → K}
    {pa pb pf : ℕ → ℕ → ℕ → K} {M : K} (hok : ∀ g < p.groups, SlabOk p sigma g)
    (hfine : ∀ g < p.groups, ∀ n < p.angles, FineFor p.cells (p.angleX n) p.dx (fun i => sigma (p.mm i) g))
    (hw : ∀ n < p.angles, 0 ≤ p.angleW n)
    (ha : SolvesMultigroup p sigma (fun _ _ _ => 0) E1 bnd a pa)
    (hb : SolvesMultigroup p sigma (fun _ _ _ => 0) E2 bnd b pb)
    (hf : SolvesMultigroup p sigma (fun _ _ _ => 0) E3 bnd f pf)
    (hq : ∀ i < p.cells, ∀ n < p.angles, ∀ g < p.groups,
      sourceAt E3 i n g ≤ M * sourceAt E1 i n g + (1 - M) * sourceAt E2 i n g) :
    ∀ i < p.cells, ∀ g < p.groups, f i g ≤ M * a i g + (1 - M) * b i g := by
  intro i hi g hg
  have hbal : AllBalanced p.cells p.angles p.angleX p.dx (fun i => sigma (p.mm i) g)
      (fun n i => M * sourceAt E1 i n g + (1 - M) * sourceAt E2 i n g - sourceAt E3 i n g)
      (fun n i => (M * pa g n i + (1 - M) * pb g n i) + -1 * pf g n i) := fun n hn i hi => by
    have h1 := ha.balance g hg n hn i hi
    have h2 := hb.balance g hg n hn i hi
    have h3 := hf.balance g hg n hn i hi
    beta_reduce at h1 h2 h3 ⊢
    simp only [zero_mul, sum_const_zero, zero_add] at h1 h2 h3
    simp only [sourceAt, ← bidx.eq_1]
    linear_combination M * h1 + (1 - M) * h2 - h3
  have nn := swept_nonneg (hok g hg).nonzero (hok g hg).phys (hfine g hg) hbal
    (sweptInflow_add (sweptInflow_add (sweptInflow_smul M (ha.inflow g hg)) (sweptInflow_smul (1 - M) (hb.inflow g hg)))
      (sweptInflow_smul (-1) (hf.inflow g hg)))
    (fun n hn i hi => by linarith [hq i hi n hn g hg])
    (fun n hn _ => by apply le_of_eq; ring) (fun n hn _ => by apply le_of_eq; ring)
  have e := scalarCenter_scaled_le (E := 1) (psi := fun n i => M * pa g n i + (1 - M) * pb g n i) (psi' := pf g) (i := i) hw
    (fun n hn => by have := nn n hn i hi.le; beta_reduce at this; linarith)
    (fun n hn => by have := nn n hn (i + 1) hi; beta_reduce at this; linarith)
  rw [hf.scalar g hg i hi, ha.scalar g hg i hi, hb.scalar g hg i hi]
  refine e.trans (le_of_eq ?_)
  rw [one_mul]
  unfold scalarCenter
  rw [mul_sum, mul_sum, ← sum_add_distrib]
  exact sum_congr rfl fun _ _ => by ring

/-- Answers of purely absorbing problems with nearby data. -/
theorem absorbing_near {th c s : K} (hc : 1 ≤ c) (hth0 : 0 ≤ th) (hth1 : th * c ^ 2 < 1)
    (hs : s = c * (1 - th) / (1 - th * c ^ 2)) (p : Problem K) (dx' : ℕ → K)
    (sigma sigma' : ℕ → ℕ → K) (E1 E2 bnd bnd' : Arr3 K)
    (hok : ∀ g < p.groups, SlabOk p sigma g)
    (hfine : ∀ g < p.groups, ∀ n < p.angles, FineBy th p.cells (p.angleX n) p.dx (fun i => sigma (p.mm i) g))
    (hw : ∀ n < p.angles, 0 ≤ p.angleW n)
    (ndx : ∀ i < p.cells, WithinFactor c (p.dx i) (dx' i))
    (nsg : ∀ i < p.cells, ∀ g < p.groups, WithinFactor c (sigma (p.mm i) g) (sigma' (p.mm i) g))
    (nE : ∀ i < p.cells, ∀ n < p.angles, ∀ g < p.groups, WithinFactor c (sourceAt E1 i n g) (sourceAt E2 i n g))
    (nbnd : ∀ s < 2, ∀ n < p.angles, ∀ g < p.groups, WithinFactor c (sourceAt bnd s n g) (sourceAt bnd' s n g))
    {a b : ℕ → ℕ → K} {pa pb : ℕ → ℕ → ℕ → K} (ha : SolvesMultigroup p sigma (fun _ _ _ => 0) E1 bnd a pa)
    (hb : SolvesMultigroup { p with dx := dx' } sigma' (fun _ _ _ => 0) E2 bnd' b pb) :
    ∀ i < p.cells, ∀ g < p.groups, WithinFactor (c * ((s * c) ^ p.cells) ^ 2) (a i g) (b i g) := by
  intro i hi g hg
  have hs1 : 1 ≤ s := by rw [hs]; exact one_le_subFactor hc hth0 hth1
  have hQ1 : 1 ≤ ((s * c) ^ p.cells) ^ 2 := one_le_pow₀ (one_le_pow₀ (by nlinarith))
  have hsw := swept_near hc hth0 hth1 hs (hok g hg).nonzero (hok g hg).phys (hfine g hg) ndx
    (fun i hi => nsg i hi g hg) hc (fun n hn i hi => by
      simp only [zero_mul, sum_const_zero, zero_add]
      exact nE i hi n hn g hg) (ha.balance g hg) (hb.balance g hg) (ha.inflow g hg) (hb.inflow g hg)
    (fun n hn => nbnd 0 (by omega) n hn g hg) (fun n hn => nbnd 1 (by omega) n hn g hg)
  rw [ha.scalar g hg i hi, hb.scalar g hg i hi]
  exact scalarCenter_near (by nlinarith) hw (fun n hn => hsw n hn i hi.le) (fun n hn => hsw n hn (i + 1) hi)

/-- C219: with any scattering, in-group and up-scatter included, data (cell widths, total and scattering cross
sections, sources, boundary values) known up to the factor `1/(1 - eps)` determine the discrete flux up to the factor
`1/(1 - R D eps)`, where `R` bounds the ratio of the flux to the uncollided flux that `source_iteration` returns when
scattering is switched off, and `D = 1 + 2 N (1 + 2/(1 - th))`. -/
theorem C219_scattering_conditioning {th eps R : K} (heps : 0 ≤ eps) (heps1 : eps < 1) (hth0 : 0 ≤ th)
    (hth1 : th < 1) (p : Problem K) (hN : 0 < p.cells) (hG : 0 < p.groups) (dx' : ℕ → K) (xsTotal xsTotal' : ℕ → ℕ → K) (xs xs' : ℕ → ℕ → ℕ → K)
    (ext ext' bnd bnd' : Arr3 K) (guess u : ℕ → ℕ → K)
    (hok : ∀ g < p.groups, SlabOk p xsTotal g)
    (hfine : ∀ g < p.groups, ∀ n < p.angles, ∀ i < p.cells, xsTotal (p.mm i) g * p.dx i ≤ th * (2 * |p.angleX n|))
    (hw : ∀ n < p.angles, 0 ≤ p.angleW n)
    (ndx : ∀ i < p.cells, WithinFactor (1 / (1 - eps)) (p.dx i) (dx' i))
    (nT : ∀ i < p.cells, ∀ g < p.groups, WithinFactor (1 / (1 - eps)) (xsTotal (p.mm i) g) (xsTotal' (p.mm i) g))
    (nS : ∀ i < p.cells, ∀ g < p.groups, ∀ g' < p.groups,
      WithinFactor (1 / (1 - eps)) (xs (p.mm i) g g') (xs' (p.mm i) g g'))
    (next : ∀ i < p.cells, ∀ n < p.angles, ∀ g < p.groups,
      WithinFactor (1 / (1 - eps)) (sourceAt ext i n g) (sourceAt ext' i n g))
    (nbnd : ∀ s < 2, ∀ n < p.angles, ∀ g < p.groups,
      WithinFactor (1 / (1 - eps)) (sourceAt bnd s n g) (sourceAt bnd' s n g))
    (hu : sourceIteration p xsTotal (.iso fun _ _ _ => 0) ext bnd guess = .ok u)
    (hu0 : ∀ i < p.cells, ∀ g < p.groups, 0 < u i g)
    (phi phi' : ℕ → ℕ → K) (psi psi' : ℕ → ℕ → ℕ → K)
    (h : SolvesMultigroup p xsTotal xs ext bnd phi psi)
    (h' : SolvesMultigroup { p with dx := dx' } xsTotal' xs' ext' bnd' phi' psi')
    (hpos : ∀ i < p.cells, ∀ g < p.groups, 0 ≤ phi i g) (hpos' : ∀ i < p.cells, ∀ g < p.groups, 0 ≤ phi' i g)
    (hR : ∀ i < p.cells, ∀ g < p.groups, phi i g ≤ R * u i g) :
    R * dataCost th p.cells * eps < 1 → ∀ i < p.cells, ∀ g < p.groups,
      WithinFactor (1 / (1 - R * dataCost th p.cells * eps)) (phi i g) (phi' i g) := by
  intro hcost
  have hfine' : ∀ g < p.groups, ∀ n < p.angles, FineFor p.cells (p.angleX n) p.dx (fun i => xsTotal (p.mm i) g) :=
    fun g hg n hn i hi => (hfine g hg n hn i hi).trans (mul_le_of_le_one_left (by positivity) hth1.le)
  obtain ⟨u', pu, hu', hus⟩ := C22_downscatter_exact p xsTotal (fun _ _ _ => 0) ext bnd guess hok fun _ _ _ _ => rfl
  obtain rfl : u = u' := by rw [hu] at hu'; exact Except.ok.inj hu'
  have hD1 : 1 ≤ dataCost th p.cells := by
    unfold dataCost
    have : (0 : K) < 1 - th := by linarith
    have : (0 : K) ≤ 2 * (p.cells : K) * (1 + 2 / (1 - th)) := by positivity
    linarith
  obtain ⟨δ, hδ⟩ : ∃ δ, δ = dataCost th p.cells * eps := ⟨_, rfl⟩
  have hδ0 : 0 ≤ δ := by rw [hδ]; exact mul_nonneg (by linarith) heps
  rw [mul_assoc, ← hδ] at hcost ⊢
  have hsE := solves_emitted h
  have hsE' := solves_emitted h'
  obtain ⟨c, hc⟩ : ∃ c, c = 1 / (1 - eps) := ⟨_, rfl⟩
  have hc0 : 0 < c := by rw [hc]; apply div_pos one_pos; linarith
  rw [← hc] at ndx nT nS next nbnd
  have hxs : ∀ i < p.cells, ∀ g < p.groups, ∀ g' < p.groups, 0 ≤ xs (p.mm i) g g' := fun i hi g hg g' hg' =>
    (nS i hi g hg g' hg').left_nonneg hc0
  -- the uncollided flux is not larger than the flux
  have hup : ∀ i < p.cells, ∀ g < p.groups, u i g ≤ phi i g := fun i hi g hg => by
    have := absorbing_combo (M := 1) hok hfine' hw hsE hus hus (fun i hi n hn g hg => by
      rw [sourceAt_emitted p xs ext phi hn hg]
      have : 0 ≤ ∑ og ∈ range p.groups, xs (p.mm i) g og * phi i og := sum_nonneg fun og hog =>
        mul_nonneg (hxs i hi g hg og (mem_range.mp hog)) (hpos i hi og (mem_range.mp hog))
      linarith) i hi g hg
    linarith
  have hR1 : 1 ≤ R := by
    have h1 := hup 0 hN 0 hG
    have h2 := hR 0 hN 0 hG
    have h3 := hu0 0 hN 0 hG
    by_contra hlt
    nlinarith
  have hRδ : δ ≤ R * δ := le_mul_of_one_le_left hδ0 hR1
  obtain ⟨hc1, hth2, -, hF⟩ := groupFactor_bound hN heps hth0 hth1 (by rw [← hδ]; linarith) hc
  obtain ⟨s, hs⟩ : ∃ s, s = c * (1 - th) / (1 - th * c ^ 2) := ⟨_, rfl⟩
  rw [← hs, ← hδ] at hF
  obtain ⟨κ, hκ⟩ : ∃ κ, κ = c * ((s * c) ^ p.cells) ^ 2 := ⟨_, rfl⟩
  rw [← hκ] at hF
  have hs1 : 1 ≤ s := by rw [hs]; exact one_le_subFactor hc1 hth0 hth2
  have hκ1 : 1 ≤ κ := by
    have : 1 ≤ ((s * c) ^ p.cells) ^ 2 := one_le_pow₀ (one_le_pow₀ (by nlinarith))
    rw [hκ]; nlinarith
  -- the unprimed answer to the primed scattering source
  obtain ⟨y, py, -, hy⟩ := C22_downscatter_exact p xsTotal (fun _ _ _ => 0) (emitted p xs ext phi') bnd guess hok
    fun _ _ _ _ => rfl
  have near := absorbing_near hc1 hth0 hth2 hs p dx' xsTotal xsTotal' (emitted p xs ext phi')
    (emitted { p with dx := dx' } xs' ext' phi') bnd bnd' hok hfine hw ndx nT (fun i hi n hn g hg => by
      have e := sourceAt_emitted { p with dx := dx' } xs' ext' phi' (i := i) hn hg
      rw [sourceAt_emitted p xs ext phi' hn hg, e]
      refine WithinFactor.add (sum_near hc1 fun og hog => ?_) (next i hi n hn g hg)
      have := (nS i hi g hg og hog).mul hc0 one_pos (WithinFactor.refl (c := 1) le_rfl (hpos' i hi og hog))
      rwa [mul_one] at this) nbnd hy hsE'
  rw [← hκ] at near
  have hyu : ∀ i < p.cells, ∀ g < p.groups, u i g ≤ y i g := fun i hi g hg => by
    have := absorbing_combo (M := 1) hok hfine' hw hy hus hus (fun i hi n hn g hg => by
      rw [sourceAt_emitted p xs ext phi' hn hg]
      have : 0 ≤ ∑ og ∈ range p.groups, xs (p.mm i) g og * phi' i og := sum_nonneg fun og hog =>
        mul_nonneg (hxs i hi g hg og (mem_range.mp hog)) (hpos' i hi og (mem_range.mp hog))
      linarith) i hi g hg
    linarith
  have hp : ∀ i < p.cells, ∀ g < p.groups, 0 < phi i g := fun i hi g hg => (hu0 i hi g hg).trans_le (hup i hi g hg)
  have hp' : ∀ i < p.cells, ∀ g < p.groups, 0 < phi' i g := fun i hi g hg =>
    factor_pos (by linarith) (near i hi g hg) ((hu0 i hi g hg).trans_le (hyu i hi g hg))
  have hgap : 0 < 1 - R * δ := by linarith
  -- the largest ratio of the primed to the unprimed flux
  have upper : ∀ i < p.cells, ∀ g < p.groups, phi' i g * (1 - R * δ) ≤ phi i g := by
    obtain ⟨i0, hi0, g0, hg0, hmax⟩ := max_ratio (a := phi') hN hG hp
    obtain ⟨M, hM⟩ : ∃ M, M = phi' i0 g0 / phi i0 g0 := ⟨_, rfl⟩
    rw [← hM] at hmax
    have e : M * phi i0 g0 = phi' i0 g0 := by rw [hM]; field_simp [(hp i0 hi0 g0 hg0).ne']
    have h1 := absorbing_combo (M := M) hok hfine' hw hsE hus hy (fun i hi n hn g hg => by
      rw [sourceAt_emitted p xs ext phi' hn hg, sourceAt_emitted p xs ext phi hn hg]
      have : ∑ og ∈ range p.groups, xs (p.mm i) g og * phi' i og
          ≤ M * ∑ og ∈ range p.groups, xs (p.mm i) g og * phi i og := by
        rw [mul_sum]
        refine sum_le_sum fun og hog => ?_
        have := mul_le_mul_of_nonneg_left (hmax i hi og (mem_range.mp hog)) (hxs i hi g hg og (mem_range.mp hog))
        linarith
      linarith) i0 hi0 g0 hg0
    have h2 := (near i0 hi0 g0 hg0).2.1
    have hM0 : 0 < M := by rw [hM]; exact div_pos (hp' i0 hi0 g0 hg0) (hp i0 hi0 g0 hg0)
    have hu1 := hu0 i0 hi0 g0 hg0
    -- (1 - δ) M φ ≤ M φ + (1 - M) u
    have h3 : (1 - δ) * phi' i0 g0 ≤ y i0 g0 := by
      have a1 := mul_le_mul_of_nonneg_right h2 (by linarith : 0 ≤ 1 - δ)
      have a2 := mul_le_mul_of_nonneg_right hF ((hu1.trans_le (hyu i0 hi0 g0 hg0)).le)
      linarith
    have h4 : δ * M * phi i0 g0 ≤ δ * M * (R * u i0 g0) :=
      mul_le_mul_of_nonneg_left (hR i0 hi0 g0 hg0) (mul_nonneg hδ0 hM0.le)
    have h5 : M * (1 - R * δ) ≤ 1 := by
      refine le_of_mul_le_mul_right ?_ hu1
      rw [← e] at h3
      linarith
    intro i hi g hg
    have h6 := mul_le_mul_of_nonneg_right (hmax i hi g hg) hgap.le
    have h7 := mul_le_mul_of_nonneg_right h5 (hp i hi g hg).le
    linarith
  have lower : ∀ i < p.cells, ∀ g < p.groups, phi i g * (1 - R * δ) ≤ phi' i g := by
    obtain ⟨i0, hi0, g0, hg0, hmax⟩ := max_ratio (a := phi) hN hG hp'
    obtain ⟨M, hM⟩ : ∃ M, M = phi i0 g0 / phi' i0 g0 := ⟨_, rfl⟩
    rw [← hM] at hmax
    have e : M * phi' i0 g0 = phi i0 g0 := by rw [hM]; field_simp [(hp' i0 hi0 g0 hg0).ne']
    have h1 := absorbing_combo (M := M) hok hfine' hw hy hus hsE (fun i hi n hn g hg => by
      rw [sourceAt_emitted p xs ext phi' hn hg, sourceAt_emitted p xs ext phi hn hg]
      have : ∑ og ∈ range p.groups, xs (p.mm i) g og * phi i og
          ≤ M * ∑ og ∈ range p.groups, xs (p.mm i) g og * phi' i og := by
        rw [mul_sum]
        refine sum_le_sum fun og hog => ?_
        have := mul_le_mul_of_nonneg_left (hmax i hi og (mem_range.mp hog)) (hxs i hi g hg og (mem_range.mp hog))
        linarith
      linarith) i0 hi0 g0 hg0
    have h2 := (near i0 hi0 g0 hg0).2.2
    have hM0 : 0 < M := by rw [hM]; exact div_pos (hp i0 hi0 g0 hg0) (hp' i0 hi0 g0 hg0)
    have hu1 := hu0 i0 hi0 g0 hg0
    have hφ := hp i0 hi0 g0 hg0
    have h3 : M * y i0 g0 ≤ κ * phi i0 g0 := by
      have := mul_le_mul_of_nonneg_left h2 hM0.le
      rw [← e]; linarith
    -- (M - 1) u ≤ (κ - 1) φ ≤ (κ - 1) R u
    have h4 : (M - 1) * u i0 g0 ≤ (κ - 1) * R * u i0 g0 := by
      have := mul_le_mul_of_nonneg_left (hR i0 hi0 g0 hg0) (by linarith : 0 ≤ κ - 1)
      linarith
    have h5 : M - 1 ≤ (κ - 1) * R := le_of_mul_le_mul_right h4 hu1
    have hδ1 : 0 < 1 - δ := by linarith
    have h6 : (M - 1) * (1 - δ) ≤ R * δ := by
      have a1 := mul_le_mul_of_nonneg_right h5 hδ1.le
      have a2 := mul_le_mul_of_nonneg_left hF (by linarith : 0 ≤ R)
      linarith
    have h7 : M * (1 - R * δ) ≤ 1 := by
      refine le_of_mul_le_mul_right ?_ hδ1
      have a1 := mul_le_mul_of_nonneg_right h6 hgap.le
      have a2 : 0 ≤ R * δ * δ * (R - 1) := by
        have : 0 ≤ R - 1 := by linarith
        positivity
      linarith
    intro i hi g hg
    have h8 := mul_le_mul_of_nonneg_right (hmax i hi g hg) hgap.le
    have h9 := mul_le_mul_of_nonneg_right h7 (hp' i hi g hg).le
    linarith
  intro i hi g hg
  refine ⟨(hp' i hi g hg).le, ?_, ?_⟩
  · rw [one_div, ← div_eq_inv_mul, le_div_iff₀ hgap]; exact upper i hi g hg
  · rw [one_div, ← div_eq_inv_mul, le_div_iff₀ hgap]; exact lower i hi g hg

/-- Two groups that scatter into one another and into themselves; the convergence tests always agree. -/
def exShot : Problem ℚ := { exFlat ℚ with convIn := fun _ _ => true, convOut := fun _ _ => true }

def exShotXs : ℕ → ℕ → ℕ → ℚ := fun _ _ _ => 1 / 4

/-- The flat flux `f` with the source and inflow that it needs. -/
theorem exShot_solves (f : ℚ) : SolvesMultigroup exShot (fun _ _ => 1) exShotXs ⟨1, 1, fun _ _ _ => f / 2⟩
    ⟨1, 1, fun _ _ _ => f⟩ (fun _ _ => f) (fun _ _ _ => f) := by
  refine ⟨fun g _ i _ => ?_, fun g _ n _ i _ => ?_, fun g _ n _ => ?_⟩
  · show f = ∑ n ∈ range 2, 1 / 2 * ((f + f) / 2)
    rw [sum_const, card_range]; simp
  · show _ * (f - f) / _ + 1 * ((f + f) / 2) = ∑ g' ∈ range 2, 1 / 4 * f + f / 2
    rw [sum_const, card_range]; simp; ring
  · have hr : ∀ x : ℚ, ¬ leavesReflecting exShot.bcL exShot.bcR x := by
      intro x; simp [leavesReflecting, exShot, exFlat]
    have h2 : ¬ (exShot.angles - 1 - n < n ∧ leavesReflecting exShot.bcL exShot.bcR
      (exShot.angleX (exShot.angles - 1 - n))) := fun h => hr _ h.2
    rw [if_neg h2, add_zero]
    simp only [inflow]

/-- The uncollided flux. -/
def exShotFirst : Except PyErr (ℕ → ℕ → ℚ) :=
  sourceIteration exShot (fun _ _ => 1) (.iso fun _ _ _ => 0) ⟨1, 1, fun _ _ _ => 1 / 2⟩ ⟨1, 1, fun _ _ _ => 1⟩ fun _ _ => 0

theorem exShot_first : ∃ u, exShotFirst = .ok u ∧ ∀ i < exShot.cells, ∀ g < exShot.groups, u i g = 221 / 242 := by
  obtain ⟨u, psi, h, -⟩ := C22_downscatter_exact exShot (fun _ _ => 1) (fun _ _ _ => 0) ⟨1, 1, fun _ _ _ => 1 / 2⟩
    ⟨1, 1, fun _ _ _ => 1⟩ (fun _ _ => 0) (fun g _ => ⟨rfl, (exFlat_ok g).nonzero, (exFlat_ok g).phys⟩) fun _ _ _ _ => rfl
  refine ⟨u, h, fun i hi g hg => ?_⟩
  have key : ∀ i < 2, ∀ g < 2, (match exShotFirst with | .ok u => u i g | .error _ => 0) = 221 / 242 := by decide +kernel
  have h2 := key i hi g hg
  rw [show exShotFirst = .ok u from h] at h2
  exact h2

example : ∃ u, exShotFirst = .ok u ∧ ∀ i < 2, ∀ g < 2,
    WithinFactor (1 / (1 - 11 / 10 * dataCost (1 / 2) 2 * (1 / 1000))) ((fun _ _ => 1) i g) ((fun _ _ => 1001 / 1000 : ℕ → ℕ → ℚ) i g) := by
  obtain ⟨u, hu, hv⟩ := exShot_first
  refine ⟨u, hu, ?_⟩
  have n1 : ∀ x : ℚ, 0 ≤ x → WithinFactor (1 / (1 - 1 / 1000)) x x := fun x hx => WithinFactor.refl (by norm_num) hx
  exact C219_scattering_conditioning (by norm_num) (by norm_num) (by norm_num) (by norm_num) exShot (by decide) (by decide)
    (fun _ => 1 / 10) (fun _ _ => 1) (fun _ _ => 1) exShotXs exShotXs ⟨1, 1, fun _ _ _ => 1 / 2⟩
    ⟨1, 1, fun _ _ _ => 1001 / 1000 / 2⟩ ⟨1, 1, fun _ _ _ => 1⟩ ⟨1, 1, fun _ _ _ => 1001 / 1000⟩ (fun _ _ => 0) u
    (fun g _ => ⟨rfl, (exFlat_ok g).nonzero, (exFlat_ok g).phys⟩)
    (fun g _ n _ i _ => by
      show (1 : ℚ) * (1 / 10) ≤ 1 / 2 * (2 * |(exFlat ℚ).angleX n|)
      rw [exFlat_abs]; norm_num)
    (fun n _ => by show (0 : ℚ) ≤ 1 / 2; norm_num) (fun _ _ => n1 _ (by show (0 : ℚ) ≤ 1 / 10; norm_num))
    (fun _ _ _ _ => n1 _ (by norm_num)) (fun _ _ _ _ _ _ => n1 _ (by norm_num [exShotXs]))
    (fun _ _ _ _ _ _ => by norm_num [sourceAt, WithinFactor]) (fun _ _ _ _ _ _ => by norm_num [sourceAt, WithinFactor])
    hu (fun i hi g hg => by rw [hv i hi g hg]; norm_num) _ _ _ _ (exShot_solves 1) (exShot_solves (1001 / 1000))
    (fun _ _ _ _ => by norm_num) (fun _ _ _ _ => by norm_num) (fun i hi g hg => by rw [hv i hi g hg]; norm_num)
    (by
      have : dataCost (1 / 2 : ℚ) exShot.cells = 21 := by norm_num [dataCost, exShot, exFlat]
      rw [this]; norm_num)

end Discrete1.Props
