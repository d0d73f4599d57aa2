import Verif.Props.Auto

/-!
# Hybrid runs that lose nothing on a coarse energy grid: C178, C179
-/

set_option linter.unusedSectionVars false
set_option linter.unusedSimpArgs false

namespace Discrete1.Props

open Finset Discrete1.Spec Discrete1.Slab Discrete1.Tools Discrete1.MultiGroup Discrete1.Drivers
  Discrete1.Auto Discrete1.Setup Discrete1.Hybrid

variable {K : Type} [Field K] [LinearOrder K] [IsStrictOrderedRing K]

/-- A sum of differences of fluxes with the same boundary sources enters with none. -/
theorem sweptInflow_block {N A : ℕ} {mu : ℕ → K} {bcL bcR : Bool} {bL bR : ℕ → ℕ → K}
    {e e' : ℕ → ℕ → ℕ → K} (s : Finset ℕ)
    (h : ∀ g ∈ s, SweptInflow N A mu bcL bcR (bL g) (bR g) (e g))
    (h' : ∀ g ∈ s, SweptInflow N A mu bcL bcR (bL g) (bR g) (e' g)) :
    SweptInflow N A mu bcL bcR (fun _ => 0) (fun _ => 0) (fun n i => ∑ g ∈ s, (e g n i - e' g n i)) := by
  intro n hn
  have key : ∀ g ∈ s, inflow N (mu n) (fun i => e g n i - e' g n i) =
      (if A - 1 - n < n ∧ leavesReflecting bcL bcR (mu (A - 1 - n)) then
        outflow N (mu (A - 1 - n)) (fun i => e g (A - 1 - n) i - e' g (A - 1 - n) i) else 0) := by
    intro g hg
    have a := h g hg n hn
    have b := h' g hg n hn
    simp only [inflow, outflow] at a b ⊢
    split_ifs at a b ⊢ <;> linear_combination a - b
  have hs := sum_congr rfl key
  have e1 : ∑ g ∈ s, inflow N (mu n) (fun i => e g n i - e' g n i)
      = inflow N (mu n) (fun i => ∑ g ∈ s, (e g n i - e' g n i)) := by
    unfold inflow; split_ifs <;> rfl
  rw [e1] at hs
  refine hs.trans ?_
  rw [ite_self, zero_add]
  by_cases hc : A - 1 - n < n ∧ leavesReflecting bcL bcR (mu (A - 1 - n))
  · simp only [if_pos hc]
    unfold outflow; split_ifs <;> rfl
  · simp only [if_neg hc]
    exact sum_const_zero

/-- The collided grid has the mesh, the materials, the ordinates and the walls of the fine problem. -/
structure SameSpace (p pC : Problem K) : Prop where
  cells : pC.cells = p.cells
  angles : pC.angles = p.angles
  dx : pC.dx = p.dx
  mm : pC.mm = p.mm
  angleX : pC.angleX = p.angleX
  angleW : pC.angleW = p.angleW
  bcL : pC.bcL = p.bcL
  bcR : pC.bcR = p.bcR

/-- One hybrid step whose total cross section (with the time term) does not vary within a coarse group: the
final angular flux minus the uncollided one, summed over the coarse group, is the collided flux. -/
theorem block_collided {p pC : Problem K} (hsame : SameSpace p pC) {xsV xsVC : ℕ → ℕ → K}
    {xs xsC : ℕ → ℕ → ℕ → K} {coarse : ℕ → ℕ} {factor : ℕ → K} {q u psi : ℕ → ℕ → ℕ → K} {bnd S : Arr3 K}
    {phiC : ℕ → ℕ → K} {eC : ℕ → ℕ → ℕ → K}
    (hokC : ∀ c < pC.groups, SlabOk pC xsVC c)
    (hto : ∀ g < p.groups, coarse g < pC.groups)
    (hflat : ∀ i < p.cells, ∀ g < p.groups, xsVC (p.mm i) (coarse g) = xsV (p.mm i) g)
    (hxsC : ∀ m, ∀ a < pC.groups, ∀ b < pC.groups, xsC m a b
      = ∑ og ∈ (range p.groups).filter (fun g => coarse g = a),
          ∑ ig ∈ (range p.groups).filter (fun g => coarse g = b), xs m og ig * factor ig)
    (hu : StepData p xsV (fun _ _ _ => 0) q bnd (fun _ _ => 0) u)
    (hS : CollidedSource p pC xs coarse u S)
    (hC : SolvesMultigroup pC xsVC xsC S ⟨1, 1, fun _ _ _ => 0⟩ phiC eC)
    (hpsi : StepData p xsV xs q bnd (fun i g => quadrature p u i g + phiC i (coarse g) * factor g) psi) :
    ∀ i < p.cells, ∀ c < pC.groups,
      ∑ g ∈ (range p.groups).filter (fun g => coarse g = c), (quadrature p psi i g - quadrature p u i g)
        = phiC i c := by
  obtain ⟨eU, hU⟩ := hu
  obtain ⟨eP, hP⟩ := hpsi
  intro i hi c hc
  have hmem : ∀ g ∈ (range p.groups).filter (fun g => coarse g = c), g < p.groups ∧ coarse g = c :=
    fun g hg => ⟨mem_range.mp (mem_filter.mp hg).1, (mem_filter.mp hg).2⟩
  obtain ⟨B, hB⟩ : ∃ B, B = (range p.groups).filter (fun g => coarse g = c) := ⟨_, rfl⟩
  rw [← hB] at hmem ⊢
  have hbal : AllBalanced pC.cells pC.angles pC.angleX pC.dx (fun i => xsVC (pC.mm i) c)
      (fun n i => (∑ og ∈ range pC.groups, xsC (pC.mm i) c og * phiC i og)
        + S.val i (bidx S.angles n) (bidx S.groups c)) (fun n i => ∑ g ∈ B, (eP g n i - eU g n i)) := by
    intro n hn i hi
    rw [hsame.cells] at hi
    rw [hsame.angles] at hn
    rw [hsame.dx, hsame.mm, hsame.angleX]
    have hone : ∀ g ∈ B, p.angleX n * ((eP g n (i + 1) - eU g n (i + 1)) - (eP g n i - eU g n i)) / p.dx i
        + xsVC (p.mm i) c * (((eP g n i - eU g n i) + (eP g n (i + 1) - eU g n (i + 1))) / 2)
        = ∑ g' ∈ range p.groups, xs (p.mm i) g g' * (quadrature p u i g' + phiC i (coarse g') * factor g') := by
      intro g hg
      obtain ⟨h1, h2⟩ := hmem g hg
      have a := (hP g h1).2.1 n hn i hi
      have b := (hU g h1).2.1 n hn i hi
      rw [(hP g h1).1 n hn i hi] at a
      rw [(hU g h1).1 n hn i hi] at b
      have hf := hflat i hi g h1
      rw [h2] at hf
      rw [hf]
      simp only [zero_mul, sum_const_zero, add_zero] at b
      linear_combination a - b
    have hs := sum_congr (s₁ := B) rfl hone
    have e1 : ∑ g ∈ B, (p.angleX n * ((eP g n (i + 1) - eU g n (i + 1)) - (eP g n i - eU g n i)) / p.dx i
        + xsVC (p.mm i) c * (((eP g n i - eU g n i) + (eP g n (i + 1) - eU g n (i + 1))) / 2))
        = p.angleX n * (∑ g ∈ B, (eP g n (i + 1) - eU g n (i + 1)) - ∑ g ∈ B, (eP g n i - eU g n i)) / p.dx i
          + xsVC (p.mm i) c * ((∑ g ∈ B, (eP g n i - eU g n i) + ∑ g ∈ B, (eP g n (i + 1) - eU g n (i + 1))) / 2) := by
      rw [← sum_sub_distrib, ← sum_add_distrib, mul_sum, sum_div, sum_div, mul_sum, ← sum_add_distrib]
    rw [e1] at hs
    refine hs.trans ?_
    obtain ⟨s1, s2, s3⟩ := hS
    beta_reduce
    rw [s1, s2, bidx_full _ _ hc, show bidx 1 n = 0 by simp [bidx], s3 i hi c, ← hB]
    have hswap : ∑ og ∈ range pC.groups, xsC (p.mm i) c og * phiC i og
        = ∑ g ∈ B, ∑ g' ∈ range p.groups, xs (p.mm i) g g' * (phiC i (coarse g') * factor g') := by
      have h1 : ∀ g ∈ B, ∑ g' ∈ range p.groups, xs (p.mm i) g g' * (phiC i (coarse g') * factor g')
          = ∑ b ∈ range pC.groups, ∑ g' ∈ (range p.groups).filter (fun g' => coarse g' = b),
              xs (p.mm i) g g' * (phiC i (coarse g') * factor g') := fun g _ =>
        (sum_fiberwise_of_maps_to (fun g' hg' => mem_range.mpr (hto g' (mem_range.mp hg'))) _).symm
      rw [sum_congr rfl h1, sum_comm]
      refine sum_congr rfl fun b hb => ?_
      rw [hxsC (p.mm i) c hc b (mem_range.mp hb), ← hB, sum_mul]
      refine sum_congr rfl fun g _ => ?_
      rw [sum_mul]
      refine sum_congr rfl fun g' hg' => ?_
      rw [(mem_filter.mp hg').2]; ring
    rw [hswap, ← sum_add_distrib]
    refine sum_congr rfl fun g _ => ?_
    rw [← sum_add_distrib]
    exact sum_congr rfl fun g' _ => by ring
  have hin : SweptInflow pC.cells pC.angles pC.angleX pC.bcL pC.bcR (fun _ => 0) (fun _ => 0)
      (fun n i => ∑ g ∈ B, (eP g n i - eU g n i)) := by
    rw [hsame.cells, hsame.angles, hsame.angleX, hsame.bcL, hsame.bcR]
    exact sweptInflow_block B (fun g hg => (hP g (hmem g hg).1).2.2) (fun g hg => (hU g (hmem g hg).1).2.2)
  have heq := swept_unique (hokC c hc).nonzero (hokC c hc).phys hbal (hC.balance c hc) hin (hC.inflow c hc)
  rw [hsame.angles, hsame.cells] at heq
  rw [hC.scalar c hc i (by rw [hsame.cells]; exact hi)]
  unfold quadrature scalarCenter
  rw [hsame.angles, hsame.angleW]
  have h2 : ∀ g ∈ B, ∑ n ∈ range p.angles, p.angleW n * psi i n g - ∑ n ∈ range p.angles, p.angleW n * u i n g
      = ∑ n ∈ range p.angles, p.angleW n * (((eP g n i - eU g n i) + (eP g n (i + 1) - eU g n (i + 1))) / 2) := by
    intro g hg
    rw [← sum_sub_distrib]
    refine sum_congr rfl fun n hn => ?_
    rw [(hP g (hmem g hg).1).1 n (mem_range.mp hn) i hi, (hU g (hmem g hg).1).1 n (mem_range.mp hn) i hi]
    ring
  rw [sum_congr rfl h2, sum_comm]
  refine sum_congr rfl fun n hn => ?_
  rw [← mul_sum, ← sum_div, sum_add_distrib, heq n (mem_range.mp hn) i hi.le,
    heq n (mem_range.mp hn) (i + 1) hi]

/-! ## The collapsed data -/

theorem block_filter {G groupsC : ℕ} {grid : EnergyGrid K} (hgrid : GridFor G groupsC grid)
    {xsTotal xsTotalC : ℕ → ℕ → K} {xs xsC : ℕ → ℕ → ℕ → K} {velocity velocityC : ℕ → K} {coarse : ℕ → ℕ}
    {factor : ℕ → K} (h : Collapsed G grid xsTotal xs velocity xsTotalC xsC velocityC coarse factor)
    {c : ℕ} (hc : c < grid.coarseGroups) :
    (range G).filter (fun g => coarse g = c) = Ico (grid.gidxC c) (grid.gidxC (c + 1)) := by
  have hC := hgrid.coarse
  ext g
  rw [mem_filter, mem_range, mem_Ico]
  constructor
  · rintro ⟨hg, rfl⟩; exact (h.block g hg).2
  · rintro ⟨h1, h2⟩
    have hg : g < G := lt_of_lt_of_le h2 (by
      have := hC.mono (i := c + 1) (j := grid.coarseGroups) (by omega) le_rfl
      rwa [hC.last] at this)
    refine ⟨hg, ?_⟩
    obtain ⟨hb, k1, k2⟩ := h.block g hg
    rcases Nat.lt_trichotomy (coarse g) c with hlt | heq | hgt
    · have := hC.mono (i := coarse g + 1) (j := c) (by omega) (by omega)
      omega
    · exact heq
    · have := hC.mono (i := c + 1) (j := coarse g) (by omega) (by omega)
      omega

theorem block_factor_sum {G groupsC : ℕ} {grid : EnergyGrid K} (hgrid : GridFor G groupsC grid)
    {xsTotal xsTotalC : ℕ → ℕ → K} {xs xsC : ℕ → ℕ → ℕ → K} {velocity velocityC : ℕ → K} {coarse : ℕ → ℕ}
    {factor : ℕ → K} (h : Collapsed G grid xsTotal xs velocity xsTotalC xsC velocityC coarse factor)
    {c : ℕ} (hc : c < grid.coarseGroups) :
    ∑ g ∈ (range G).filter (fun g => coarse g = c), factor g = 1 := by
  have hw := width_pos hgrid hc
  have hst := hgrid.coarse.strict c hc
  refine mul_right_cancel₀ hw.ne' ?_
  rw [sum_mul, one_mul]
  have h1 : ∀ g ∈ (range G).filter (fun g => coarse g = c),
      factor g * (grid.edges (grid.gidxU (grid.gidxC (c + 1))) - grid.edges (grid.gidxU (grid.gidxC c)))
        = grid.edges (grid.gidxU (g + 1)) - grid.edges (grid.gidxU g) := fun g hg => by
    have := h.share g (mem_range.mp (mem_filter.mp hg).1)
    rwa [(mem_filter.mp hg).2] at this
  rw [sum_congr rfl h1, block_filter hgrid h hc]
  exact sum_Ico_sub (fun g => grid.edges (grid.gidxU g)) hst.le

theorem block_transfer {G groupsC : ℕ} {grid : EnergyGrid K} (hgrid : GridFor G groupsC grid)
    {xsTotal xsTotalC : ℕ → ℕ → K} {xs xsC : ℕ → ℕ → ℕ → K} {velocity velocityC : ℕ → K} {coarse : ℕ → ℕ}
    {factor : ℕ → K} (h : Collapsed G grid xsTotal xs velocity xsTotalC xsC velocityC coarse factor)
    {m a b : ℕ} (ha : a < grid.coarseGroups) (hb : b < grid.coarseGroups) :
    xsC m a b = ∑ og ∈ (range G).filter (fun g => coarse g = a),
      ∑ ig ∈ (range G).filter (fun g => coarse g = b), xs m og ig * factor ig := by
  have hw := width_pos hgrid hb
  refine mul_right_cancel₀ hw.ne' ?_
  rw [h.transfer a ha b hb m, sum_mul, block_filter hgrid h ha]
  refine sum_congr rfl fun og _ => ?_
  rw [sum_mul, ← block_filter hgrid h hb]
  refine sum_congr rfl fun ig hig => ?_
  have := h.share ig (mem_range.mp (mem_filter.mp hig).1)
  rw [(mem_filter.mp hig).2] at this
  rw [mul_assoc, this]

/-- The total cross section and the speed do not vary within a coarse group. -/
structure FlatTotal (grid : EnergyGrid K) (xsTotal : ℕ → ℕ → K) (velocity : ℕ → K) : Prop where
  total : ∀ c < grid.coarseGroups, ∀ g g', InBlock grid.gidxC c g → InBlock grid.gidxC c g' →
    ∀ m, xsTotal m g = xsTotal m g'
  speed : ∀ c < grid.coarseGroups, ∀ g g', InBlock grid.gidxC c g → InBlock grid.gidxC c g' →
    velocity g = velocity g'

/-- What a neutron does after a collision does not depend on its group within a coarse group. -/
def FlatColumns (G : ℕ) (grid : EnergyGrid K) (xs : ℕ → ℕ → ℕ → K) : Prop :=
  ∀ c < grid.coarseGroups, ∀ g g', InBlock grid.gidxC c g → InBlock grid.gidxC c g' →
    ∀ m, ∀ k < G, xs m k g = xs m k g'

theorem flat_total {G groupsC : ℕ} {grid : EnergyGrid K} (hgrid : GridFor G groupsC grid)
    {xsTotal xsTotalC : ℕ → ℕ → K} {xs xsC : ℕ → ℕ → ℕ → K} {velocity velocityC : ℕ → K} {coarse : ℕ → ℕ}
    {factor : ℕ → K} (h : Collapsed G grid xsTotal xs velocity xsTotalC xsC velocityC coarse factor)
    (hflat : FlatTotal grid xsTotal velocity) {g : ℕ} (hg : g < G) :
    (∀ m, xsTotalC m (coarse g) = xsTotal m g) ∧ velocityC (coarse g) = velocity g := by
  obtain ⟨hc, hin⟩ := h.block g hg
  have hst := hgrid.coarse.strict _ hc
  constructor
  · intro m
    refine mul_right_cancel₀ (width_pos hgrid hc).ne' ?_
    rw [h.total _ hc m, ← sum_Ico_sub (fun g => grid.edges (grid.gidxU g)) hst.le, mul_sum]
    exact sum_congr rfl fun k hk => by
      rw [hflat.total _ hc k g ⟨(mem_Ico.mp hk).1, (mem_Ico.mp hk).2⟩ hin m]
  · have hne : ((grid.gidxC (coarse g + 1) - grid.gidxC (coarse g) : ℕ) : K) ≠ 0 := by
      exact_mod_cast (by omega : grid.gidxC (coarse g + 1) - grid.gidxC (coarse g) ≠ 0)
    refine mul_right_cancel₀ hne ?_
    rw [h.speed _ hc, sum_congr rfl fun k hk =>
      hflat.speed _ hc k g ⟨(mem_Ico.mp hk).1, (mem_Ico.mp hk).2⟩ hin, sum_const, Nat.card_Ico, nsmul_eq_mul,
      mul_comm]

/-! ## C178 -/

/-- C178: the automatic drivers with the fine ordinates, when the total cross section and the speed do not
vary within a coarse group.  The call succeeds, and in every step whose collided iteration is solved, the
returned flux summed over a coarse group is the uncollided flux of the coarse group plus the collided flux:
the last solve only distributes the collided particles among the fine groups, it neither creates nor loses
any.  Whatever the transfer matrices. -/
theorem C178_coarse_groups_kept (second : Bool) (p : Problem K) (bc : BcX)
    (gauss : ℕ → List (K × K)) (convC : (ℕ → ℕ → K) → (ℕ → ℕ → K) → Bool) (M : ℕ) (xsTotal : ℕ → ℕ → K)
    (scatter fission : ℕ → ℕ → ℕ → K) (velocity : ℕ → K) (external boundary : TimeArr K)
    (groupsC : ℕ) (grid : EnergyGrid K) (steps : ℕ) (dt : K) (init : ℕ → ℕ → ℕ → K)
    (hok : TimedOk p xsTotal velocity dt) (hG : 0 < p.groups) (hgrid : GridFor p.groups groupsC grid)
    (hflat : FlatTotal grid xsTotal velocity) (hext : Covers external steps) (hbnd : Covers boundary steps) :
    ∃ (pC : Problem K) (xsTotalC : ℕ → ℕ → K) (xsC : ℕ → ℕ → ℕ → K) (velocityC : ℕ → K)
      (coarse : ℕ → ℕ) (factor : ℕ → K)
      (out : ℕ → ℕ → ℕ → K) (psi u : ℕ → ℕ → ℕ → ℕ → K) (phiC : ℕ → ℕ → ℕ → K) (S : ℕ → Arr3 K),
      autoBdf second p bc gauss convC M xsTotal scatter (.matrix fission) velocity external boundary p.angles
        groupsC grid steps dt none none init = .ok out ∧ pC.groups = groupsC ∧
      (∀ c < groupsC, SlabOk pC xsTotalC c) ∧ (∀ c < groupsC, 0 < velocityC c) ∧
      Collapsed p.groups grid xsTotal (fun m g g' => scatter m g g' + fission m g g') velocity xsTotalC xsC
        velocityC coarse factor ∧
      psi 0 = init ∧
      ∀ j < steps,
        ImplicitStep p xsTotal (fun _ _ _ => 0) (fun _ _ => 0) (timeRate second j psi (u j) velocity dt)
          (entry external j) (entry boundary j) (u j) ∧
        sourceIteration pC (fun m c => xsTotalC m c + timeCoef K second j / (velocityC c * dt))
          (.iso xsC) (S j) ⟨1, 1, fun _ _ _ => 0⟩ (fun _ _ => 0) = .ok (phiC j) ∧
        ImplicitStep p xsTotal (fun m g g' => scatter m g g' + fission m g g')
          (fun i g => quadrature p (u j) i g + phiC j i (coarse g) * factor g)
          (timeRate second j psi (psi (j + 1)) velocity dt) (entry external j) (entry boundary j)
          (psi (j + 1)) ∧
        (∀ i g, out j i g = quadrature p (psi (j + 1)) i g) ∧
        ((∃ e, SolvesMultigroup pC (fun m c => xsTotalC m c + timeCoef K second j / (velocityC c * dt)) xsC
            (S j) ⟨1, 1, fun _ _ _ => 0⟩ (phiC j) e) →
          ∀ i < p.cells, ∀ c < groupsC, ∑ g ∈ Ico (grid.gidxC c) (grid.gidxC (c + 1)), out j i g
            = (∑ g ∈ Ico (grid.gidxC c) (grid.gidxC (c + 1)), quadrature p (u j) i g) + phiC j i c) := by
  obtain ⟨pC, xsTotalC, xsC, velocityC, coarse, factor, out, psi, u, phiC, S, hrun, hg, ha, hcl, hdx, hmm, hbl,
    hbr, hx, hokC, hcol, h0, hstep⟩ := C111_auto_steps second p bc gauss convC M xsTotal scatter fission velocity
      external boundary p.angles groupsC grid steps dt init hok hG hgrid (Or.inl rfl) hext hbnd
  have hsame : SameSpace p pC := ⟨hcl, ha, hdx, hmm, (hx rfl).1, (hx rfl).2, hbl, hbr⟩
  have hvC : ∀ c < groupsC, 0 < velocityC c := by
    intro c hc
    rw [hgrid.number] at hc
    have hst := hgrid.coarse.strict c hc
    have hm : grid.gidxC c ∈ (range p.groups).filter (fun g => coarse g = c) := by
      rw [block_filter hgrid hcol hc, mem_Ico]; exact ⟨le_rfl, hst⟩
    have h1 := (flat_total hgrid hcol hflat (mem_range.mp (mem_filter.mp hm).1)).2
    rw [(mem_filter.mp hm).2] at h1
    rw [h1]
    exact hok.velocity _ (mem_range.mp (mem_filter.mp hm).1)
  refine ⟨pC, xsTotalC, xsC, velocityC, coarse, factor, out, psi, u, phiC, S, hrun, hg, hokC, hvC, hcol, h0,
    fun j hj => ?_⟩
  obtain ⟨k1, k2, k3, k4, k5⟩ := hstep j hj
  refine ⟨k1, k3, k4, k5, fun ⟨eC, heC⟩ i hi c hc => ?_⟩
  obtain ⟨q, hq⟩ : ∃ q, q = (if second = true ∧ j ≠ 0 then
      qStar2 (entry external j) velocity dt (psi j) (psi (j - 1))
    else qStar1 (entry external j) velocity dt (psi j)) := ⟨_, rfl⟩
  have toStep : ∀ {ys : ℕ → ℕ → ℕ → K} {phi : ℕ → ℕ → K} {new : ℕ → ℕ → ℕ → K},
      ImplicitStep p xsTotal ys phi (timeRate second j psi new velocity dt) (entry external j)
        (entry boundary j) new →
      StepData p (xsStar xsTotal (timeCoef K second j) velocity dt) ys q (entry boundary j) phi new := by
    rintro ys phi new ⟨e, he⟩
    refine ⟨e, fun g hg => ⟨(he g hg).1, fun n hn i hi => ?_, (he g hg).2.2⟩⟩
    have h1 := (he g hg).2.1 n hn i hi
    have h2 := rate_identity (second := second) (j := j) hok (entry external j) psi (psi (j - 1)) new
      (fun _ => rfl) i hi n hn g hg
    rw [← hq] at h2
    linear_combination h1 + h2
  have hpos : ∀ c < groupsC, 0 ≤ timeCoef K second j / (velocityC c * dt) := fun c hc =>
    div_nonneg (timeCoef_nonneg second j) (mul_nonneg (hvC c hc).le hok.dt.le)
  have hb := block_collided hsame (xsVC := fun m c => xsTotalC m c + timeCoef K second j / (velocityC c * dt))
    (xsC := xsC) (coarse := coarse) (factor := factor)
    (fun c hc => ⟨(hokC c (hg ▸ hc)).slab, (hokC c (hg ▸ hc)).nonzero, fun i hi =>
      ⟨((hokC c (hg ▸ hc)).phys i hi).1, add_nonneg ((hokC c (hg ▸ hc)).phys i hi).2 (hpos c (hg ▸ hc))⟩⟩)
    (fun g hg' => by rw [hg, hgrid.number]; exact (hcol.block g hg').1)
    (fun i _ g hg' => by
      obtain ⟨f1, f2⟩ := flat_total hgrid hcol hflat hg'
      show xsTotalC (p.mm i) (coarse g) + timeCoef K second j / (velocityC (coarse g) * dt) = _
      rw [f1, f2]; rfl)
    (fun m a ha b hb => block_transfer hgrid hcol (by rw [← hgrid.number, ← hg]; exact ha)
      (by rw [← hgrid.number, ← hg]; exact hb))
    (toStep k1) k2 heC (toStep k4) i hi c (hg.symm ▸ hc)
  rw [block_filter hgrid hcol (hgrid.number ▸ hc), sum_sub_distrib] at hb
  rw [sum_congr rfl fun g _ => k5 i g]
  linear_combination hb

/-! ## C179 -/

/-- C179: if moreover the transfer columns do not vary within a coarse group, a hybrid run whose collided
iterations are solved is fully implicit: the coarse energy grid costs no accuracy at all. -/
theorem C179_flat_groups_exact (second : Bool) (p : Problem K) (bc : BcX)
    (gauss : ℕ → List (K × K)) (convC : (ℕ → ℕ → K) → (ℕ → ℕ → K) → Bool) (M : ℕ) (xsTotal : ℕ → ℕ → K)
    (scatter fission : ℕ → ℕ → ℕ → K) (velocity : ℕ → K) (external boundary : TimeArr K)
    (groupsC : ℕ) (grid : EnergyGrid K) (steps : ℕ) (dt : K) (init : ℕ → ℕ → ℕ → K)
    (hok : TimedOk p xsTotal velocity dt) (hG : 0 < p.groups) (hgrid : GridFor p.groups groupsC grid)
    (hflat : FlatTotal grid xsTotal velocity) (hext : Covers external steps) (hbnd : Covers boundary steps)
    (hcols : FlatColumns p.groups grid (fun m g g' => scatter m g g' + fission m g g')) :
    ∃ (pC : Problem K) (xsTotalC : ℕ → ℕ → K) (xsC : ℕ → ℕ → ℕ → K) (velocityC : ℕ → K)
      (coarse : ℕ → ℕ) (factor : ℕ → K)
      (out : ℕ → ℕ → ℕ → K) (psi : ℕ → ℕ → ℕ → ℕ → K) (phiC : ℕ → ℕ → ℕ → K) (S : ℕ → Arr3 K),
      autoBdf second p bc gauss convC M xsTotal scatter (.matrix fission) velocity external boundary p.angles
        groupsC grid steps dt none none init = .ok out ∧ pC.groups = groupsC ∧
      (∀ c < groupsC, SlabOk pC xsTotalC c) ∧ (∀ c < groupsC, 0 < velocityC c) ∧
      Collapsed p.groups grid xsTotal (fun m g g' => scatter m g g' + fission m g g') velocity xsTotalC xsC
        velocityC coarse factor ∧
      psi 0 = init ∧
      (∀ j < steps, ∀ i g, out j i g = quadrature p (psi (j + 1)) i g) ∧
      (∀ j < steps,
        sourceIteration pC (fun m c => xsTotalC m c + timeCoef K second j / (velocityC c * dt))
          (.iso xsC) (S j) ⟨1, 1, fun _ _ _ => 0⟩ (fun _ _ => 0) = .ok (phiC j)) ∧
      ((∀ j < steps, ∃ e, SolvesMultigroup pC
          (fun m c => xsTotalC m c + timeCoef K second j / (velocityC c * dt)) xsC
          (S j) ⟨1, 1, fun _ _ _ => 0⟩ (phiC j) e) →
        FullyImplicit second p xsTotal (fun m g g' => scatter m g g' + fission m g g') velocity external
          boundary dt steps psi) := by
  obtain ⟨pC, xsTotalC, xsC, velocityC, coarse, factor, out, psi, u, phiC, S, hrun, hg, hokC, hvC, hcol, h0,
    hstep⟩ := C178_coarse_groups_kept second p bc gauss convC M xsTotal scatter fission velocity external
    boundary groupsC grid steps dt init hok hG hgrid hflat hext hbnd
  refine ⟨pC, xsTotalC, xsC, velocityC, coarse, factor, out, psi, phiC, S, hrun, hg, hokC, hvC, hcol, h0,
    fun j hj => (hstep j hj).2.2.2.1, fun j hj => (hstep j hj).2.1, fun hsol j hj => ?_⟩
  obtain ⟨_, _, ⟨e, he⟩, k5, k6⟩ := hstep j hj
  have hk := k6 (hsol j hj)
  refine ⟨e, fun g hg' => ⟨(he g hg').1, fun n hn i hi => ?_, (he g hg').2.2⟩⟩
  rw [(he g hg').2.1 n hn i hi]
  congr 1
  rw [← sub_eq_zero, ← sum_sub_distrib, ← sum_fiberwise_of_maps_to (s := range p.groups)
    (t := range grid.coarseGroups) (g := coarse)
    (fun g' hg' => mem_range.mpr (hcol.block g' (mem_range.mp hg')).1)]
  refine sum_eq_zero fun c hc => ?_
  rw [mem_range] at hc
  have hst := hgrid.coarse.strict c hc
  have hin : ∀ g' ∈ (range p.groups).filter (fun g' => coarse g' = c),
      InBlock grid.gidxC c g' := fun g' h => by
    rw [block_filter hgrid hcol hc] at h
    exact mem_Ico.mp h
  rw [sum_congr rfl fun g' h => by
    rw [← mul_sub, hcols c hc g' (grid.gidxC c) (hin g' h) ⟨le_rfl, hst⟩ (p.mm i) g hg'], ← mul_sum]
  have h1 : ∑ g' ∈ (range p.groups).filter (fun g' => coarse g' = c),
      (quadrature p (u j) i g' + phiC j i (coarse g') * factor g' - quadrature p (psi (j + 1)) i g') = 0 := by
    have h2 := hk i hi c (hgrid.number ▸ hc)
    rw [← block_filter hgrid hcol hc] at h2
    rw [sum_congr rfl fun g' h => by rw [(mem_filter.mp h).2], sum_sub_distrib, sum_add_distrib, ← mul_sum,
      block_factor_sum hgrid hcol hc, mul_one, sum_congr rfl fun g' _ => (k5 i g').symm, h2, sub_self]
  rw [h1, mul_zero]

/-- C179: hence on contractive problems with solved inner iterations the hybrid run on a coarse energy grid
returns what the `timed1d` run on the fine grid returns. -/
theorem C179_flat_groups_is_timed (second : Bool) (p : Problem K) (bc : BcX)
    (gauss : ℕ → List (K × K)) (convC : (ℕ → ℕ → K) → (ℕ → ℕ → K) → Bool) (M : ℕ) (xsTotal : ℕ → ℕ → K)
    (scatter fission : ℕ → ℕ → ℕ → K) (velocity : ℕ → K) (external boundary : TimeArr K)
    (groupsC : ℕ) (grid : EnergyGrid K) (steps : ℕ) (dt : K) (init : ℕ → ℕ → ℕ → K)
    (hok : TimedOk p xsTotal velocity dt) (hG : 0 < p.groups) (hgrid : GridFor p.groups groupsC grid)
    (hflat : FlatTotal grid xsTotal velocity) (hext : Covers external steps) (hbnd : Covers boundary steps)
    (hcols : FlatColumns p.groups grid (fun m g g' => scatter m g g' + fission m g g'))
    (c : K) (hc : 0 ≤ c) (hc1 : c < 1)
    (hcon : ∀ j < steps, Contractive p
      (fun m g => xsTotal m g + timeCoef K second j / (velocity g * dt))
      (fun m g g' => scatter m g g' + fission m g g') c) :
    ∃ (pC : Problem K) (xsTotalC : ℕ → ℕ → K) (xsC : ℕ → ℕ → ℕ → K) (velocityC : ℕ → K)
      (coarse : ℕ → ℕ) (factor : ℕ → K) (outH outT : ℕ → ℕ → ℕ → K) (psiT : ℕ → ℕ → ℕ → ℕ → K)
      (phiC : ℕ → ℕ → ℕ → K) (S : ℕ → Arr3 K),
      autoBdf second p bc gauss convC M xsTotal scatter (.matrix fission) velocity external boundary p.angles
        groupsC grid steps dt none none init = .ok outH ∧
      (if second then bdf2 p xsTotal (.iso scatter) (.matrix fission) velocity external boundary steps dt init
        else backwardEuler p xsTotal (.iso scatter) (.matrix fission) velocity external boundary steps dt init)
        = .ok outT ∧ psiT 0 = init ∧
      pC.groups = groupsC ∧ (∀ c < groupsC, SlabOk pC xsTotalC c) ∧ (∀ c < groupsC, 0 < velocityC c) ∧
      Collapsed p.groups grid xsTotal (fun m g g' => scatter m g g' + fission m g g') velocity xsTotalC xsC
        velocityC coarse factor ∧
      (∀ j < steps,
        sourceIteration pC (fun m c => xsTotalC m c + timeCoef K second j / (velocityC c * dt))
          (.iso xsC) (S j) ⟨1, 1, fun _ _ _ => 0⟩ (fun _ _ => 0) = .ok (phiC j)) ∧
      (∀ j < steps, sourceIteration p (fun m c => xsTotal m c + timeCoef K second j / (velocity c * dt))
          (.iso fun m g g' => scatter m g g' + fission m g g')
          ⟨p.angles, p.groups, fun i n g => sourceAt (entry external j) i n g
            + (if second = true ∧ j ≠ 0 then 2 * psiT j i n g - 1 / 2 * psiT (j - 1) i n g
              else psiT j i n g) / (velocity g * dt)⟩ (entry boundary j)
          (if j = 0 then quadrature p init else outT (j - 1)) = .ok (outT j)) ∧
      ((∀ j < steps,
          (∃ e, SolvesMultigroup pC
            (fun m c => xsTotalC m c + timeCoef K second j / (velocityC c * dt)) xsC
            (S j) ⟨1, 1, fun _ _ _ => 0⟩ (phiC j) e) ∧
          (∃ e, SolvesMultigroup p
            (fun m c => xsTotal m c + timeCoef K second j / (velocity c * dt))
            (fun m g g' => scatter m g g' + fission m g g')
            ⟨p.angles, p.groups, fun i n g => sourceAt (entry external j) i n g
              + (if second = true ∧ j ≠ 0 then 2 * psiT j i n g - 1 / 2 * psiT (j - 1) i n g
                else psiT j i n g) / (velocity g * dt)⟩ (entry boundary j) (outT j) e)) →
        ∀ j < steps, ∀ i < p.cells, ∀ g < p.groups, outH j i g = outT j i g) := by
  obtain ⟨pC, xsTotalC, xsC, velocityC, coarse, factor, outH, psiH, phiC, S, hrun, hg, hokC, hvC, hcol, h0, hout,
    hsi, himp⟩ := C179_flat_groups_exact second p bc gauss convC M xsTotal scatter fission velocity external
    boundary groupsC grid steps dt init hok hG hgrid hflat hext hbnd hcols
  obtain ⟨outT, psiT, t1, t2, t3, t5, t4⟩ := timed_run_steps second p xsTotal scatter (.matrix fission) velocity
    external boundary steps dt init hok hG hext hbnd
  refine ⟨pC, xsTotalC, xsC, velocityC, coarse, factor, outH, outT, psiT, phiC, S, hrun, t1, t2, hg, hokC, hvC,
    hcol, hsi, t5, fun hsol j hj i hi g hg' => ?_⟩
  have hFH := himp fun j hj => (hsol j hj).1
  have hFT : FullyImplicit second p xsTotal (fun m g g' => scatter m g g' + fission m g g')
      velocity external boundary dt steps psiT := fun j hj =>
    implicit_congr (t3 j hj) (fun i hi g hg => (t4 j hj (hsol j hj).2 i hi g hg).symm) rfl
  have hu := C37_fully_implicit_unique second p xsTotal _ velocity external boundary dt c hc hc1 steps hok hcon
    psiH psiT (fun i _ n _ g _ => by rw [h0, t2]) hFH hFT (j + 1) (by omega) i hi
  rw [hout j hj i g, t4 j hj (hsol j hj).2 i hi g hg']
  unfold quadrature
  exact sum_congr rfl fun n hn => by rw [hu n (mem_range.mp hn) g hg']

/-- C179 without any condition on the inner iterations, for down-scatter problems. -/
theorem C179_flat_groups_is_timed_downscatter (second : Bool) (p : Problem K) (bc : BcX)
    (gauss : ℕ → List (K × K)) (convC : (ℕ → ℕ → K) → (ℕ → ℕ → K) → Bool) (M : ℕ) (xsTotal : ℕ → ℕ → K)
    (scatter fission : ℕ → ℕ → ℕ → K) (velocity : ℕ → K) (external boundary : TimeArr K)
    (groupsC : ℕ) (grid : EnergyGrid K) (steps : ℕ) (dt : K) (init : ℕ → ℕ → ℕ → K)
    (hok : TimedOk p xsTotal velocity dt) (hG : 0 < p.groups) (hgrid : GridFor p.groups groupsC grid)
    (hflat : FlatTotal grid xsTotal velocity) (hext : Covers external steps) (hbnd : Covers boundary steps)
    (hcols : FlatColumns p.groups grid (fun m g g' => scatter m g g' + fission m g g'))
    (c : K) (hc : 0 ≤ c) (hc1 : c < 1)
    (hcon : ∀ j < steps, Contractive p
      (fun m g => xsTotal m g + timeCoef K second j / (velocity g * dt))
      (fun m g g' => scatter m g g' + fission m g g') c)
    (hdown : ∀ m g g', g ≤ g' → g' < p.groups → scatter m g g' + fission m g g' = 0) :
    ∃ outH outT : ℕ → ℕ → ℕ → K,
      autoBdf second p bc gauss convC M xsTotal scatter (.matrix fission) velocity external boundary p.angles
        groupsC grid steps dt none none init = .ok outH ∧
      (if second then bdf2 p xsTotal (.iso scatter) (.matrix fission) velocity external boundary steps dt init
        else backwardEuler p xsTotal (.iso scatter) (.matrix fission) velocity external boundary steps dt init)
        = .ok outT ∧
      ∀ j < steps, ∀ i < p.cells, ∀ g < p.groups, outH j i g = outT j i g := by
  obtain ⟨pC, xsTotalC, xsC, velocityC, coarse, factor, outH, outT, psiT, phiC, S, hrun, t1, t2, hg, hokC, hvC,
    hcol, hsi, t5, heq⟩ := C179_flat_groups_is_timed second p bc gauss convC M xsTotal scatter fission velocity external
    boundary groupsC grid steps dt init hok hG hgrid hflat hext hbnd
      hcols c hc hc1 hcon
  refine ⟨outH, outT, hrun, t1, heq fun j hj => ⟨?_, ?_⟩⟩
  · obtain ⟨phi, e, h1, h2⟩ := downscatter_exact pC
      (fun m c => xsTotalC m c + timeCoef K second j / (velocityC c * dt)) xsC (S j) ⟨1, 1, fun _ _ _ => 0⟩
      (fun _ _ => 0) (fun c hc => ⟨(hokC c (hg ▸ hc)).slab, (hokC c (hg ▸ hc)).nonzero, fun i hi =>
        ⟨((hokC c (hg ▸ hc)).phys i hi).1, add_nonneg ((hokC c (hg ▸ hc)).phys i hi).2
          (div_nonneg (timeCoef_nonneg second j) (mul_nonneg (hvC c (hg ▸ hc)).le hok.dt.le))⟩⟩)
      (fun m a b hab hb => by
        rw [hg, hgrid.number] at hb
        have ha : a < grid.coarseGroups := by omega
        rw [block_transfer hgrid hcol ha hb]
        refine sum_eq_zero fun og hog => sum_eq_zero fun ig hig => ?_
        have hogG := mem_range.mp (mem_filter.mp hog).1
        have higG := mem_range.mp (mem_filter.mp hig).1
        rw [block_filter hgrid hcol ha] at hog
        rw [block_filter hgrid hcol hb] at hig
        have hz : scatter m og ig + fission m og ig = 0 := by
          rcases Nat.lt_or_ge a b with hlt | hge
          · have := hgrid.coarse.mono (i := a + 1) (j := b) (by omega) (by omega)
            have h1 := (mem_Ico.mp hog).2
            have h2 := (mem_Ico.mp hig).1
            exact hdown m og ig (by omega) higG
          · have : a = b := by omega
            subst this
            have := hcols a ha ig og (mem_Ico.mp hig) (mem_Ico.mp hog) m og hogG
            simp only at this
            rw [this]
            exact hdown m og og le_rfl hogG
        simp only [hz, zero_mul])
    rw [hsi j hj] at h1
    rw [Except.ok.inj h1]
    exact ⟨e, h2⟩
  · obtain ⟨phi, e, h1, h2⟩ := downscatter_exact p
      (fun m c => xsTotal m c + timeCoef K second j / (velocity c * dt))
      (fun m g g' => scatter m g g' + fission m g g')
      ⟨p.angles, p.groups, fun i n g => sourceAt (entry external j) i n g
            + (if second = true ∧ j ≠ 0 then 2 * psiT j i n g - 1 / 2 * psiT (j - 1) i n g
              else psiT j i n g) / (velocity g * dt)⟩ (entry boundary j)
          (if j = 0 then quadrature p init else outT (j - 1))
      (xsStar_ok hok (timeCoef_nonneg (K := K) second j)) hdown
    rw [t5 j hj] at h1
    rw [Except.ok.inj h1]
    exact ⟨e, h2⟩

/-! ### Example: three groups, the first two of them alike -/

/-- Three groups on the fine mesh, left wall reflecting. -/
def exThree : Problem ℚ := { exFine with groups := 3 }

/-- Two materials; groups 0 and 1 have the same total. -/
def exThreeTotal : ℕ → ℕ → ℚ := fun m g => m + if g < 2 then 1 else 2

/-- Groups 0 and 1 have the same speed. -/
def exThreeSpeed : ℕ → ℚ := fun g => if g < 2 then 1000 else 2000

/-- Groups 0 and 1 scatter into group 2. -/
def exThreeScatter : ℕ → ℕ → ℕ → ℚ := fun _ g g' => if g = 2 ∧ g' < 2 then 1 / 4 else 0

def exThreeFission : ℕ → ℕ → ℕ → ℚ := fun _ g g' => if g = 2 ∧ g' < 2 then 1 / 8 else 0

/-- Bounds `0 < 1 < 3 < 4`; the first two groups form one coarse group. -/
def exThreeGrid : EnergyGrid ℚ :=
  ⟨fun g => if g = 0 then 0 else if g = 1 then 1 else (g : ℚ) + 1, id, fun c => if c = 0 then 0 else c + 1, 2⟩

theorem exThreeGridFor : GridFor exThree.groups 2 exThreeGrid :=
  ⟨⟨3, fun g hg => by
      show (if g = 0 then (0 : ℚ) else if g = 1 then 1 else (g : ℚ) + 1)
        < if g + 1 = 0 then (0 : ℚ) else if g + 1 = 1 then 1 else ((g + 1 : ℕ) : ℚ) + 1
      have hg : g < 3 := hg
      interval_cases g <;> norm_num, ⟨rfl, rfl, fun c _ => Nat.lt_succ_self c⟩⟩,
    ⟨rfl, rfl, fun c hc => by
      have hc : c < 2 := hc
      show (if c = 0 then 0 else c + 1) < if c + 1 = 0 then 0 else c + 1 + 1
      interval_cases c <;> norm_num⟩, rfl⟩

theorem exThreeBlock {c g : ℕ} (hc : c < exThreeGrid.coarseGroups) (h : InBlock exThreeGrid.gidxC c g) :
    (c = 0 ∧ g < 2) ∨ (c = 1 ∧ g = 2) := by
  have hc : c < 2 := hc
  have h1 : (if c = 0 then 0 else c + 1) ≤ g ∧ g < if c + 1 = 0 then 0 else c + 1 + 1 := h
  interval_cases c <;> simp at h1 <;> omega

theorem exThreeFlat : FlatTotal exThreeGrid exThreeTotal exThreeSpeed := by
  constructor
  · intro c hc g g' h h' m
    rcases exThreeBlock hc h with ⟨a, b⟩ | ⟨a, b⟩ <;> rcases exThreeBlock hc h' with ⟨a', b'⟩ | ⟨a', b'⟩
    · simp only [exThreeTotal, if_pos b, if_pos b']
    · omega
    · omega
    · rw [b, b']
  · intro c hc g g' h h'
    rcases exThreeBlock hc h with ⟨a, b⟩ | ⟨a, b⟩ <;> rcases exThreeBlock hc h' with ⟨a', b'⟩ | ⟨a', b'⟩
    · simp only [exThreeSpeed, if_pos b, if_pos b']
    · omega
    · omega
    · rw [b, b']

theorem exThreeColumns : FlatColumns exThree.groups exThreeGrid
    (fun m g g' => exThreeScatter m g g' + exThreeFission m g g') := by
  intro c hc g g' h h' m k _
  rcases exThreeBlock hc h with ⟨a, b⟩ | ⟨a, b⟩ <;> rcases exThreeBlock hc h' with ⟨a', b'⟩ | ⟨a', b'⟩
  · simp only [exThreeScatter, exThreeFission, b, b', and_true]
  · omega
  · omega
  · rw [b, b']

theorem exThreeOk (g : ℕ) : SlabOk exThree exThreeTotal g :=
  ⟨rfl, (exOk g).nonzero, fun i _ => ⟨by show (0 : ℚ) < 1 / 16; norm_num, by
    show (0 : ℚ) ≤ ((exThree.mm i : ℕ) : ℚ) + if g < 2 then 1 else 2
    split_ifs <;> positivity⟩⟩

theorem exThreeTimed : TimedOk exThree exThreeTotal exThreeSpeed (1 / 10) :=
  ⟨fun g _ => exThreeOk g, by show 1 < 4; omega, fun g _ => by unfold exThreeSpeed; split_ifs <;> norm_num,
    by norm_num⟩

theorem exThreeContractive (second : Bool) (j : ℕ) : Contractive exThree
    (fun m g => exThreeTotal m g + timeCoef ℚ second j / (exThreeSpeed g * (1 / 10)))
    (fun m g g' => exThreeScatter m g g' + exThreeFission m g g') (1 / 2) := by
  have hcoef : timeCoef ℚ second j ≤ 3 / 2 := by unfold timeCoef; split <;> norm_num
  have hcoef0 : 0 ≤ timeCoef ℚ second j := timeCoef_nonneg second j
  have hterm : ∀ g : ℕ, 0 ≤ timeCoef ℚ second j / (exThreeSpeed g * (1 / 10)) ∧
      timeCoef ℚ second j / (exThreeSpeed g * (1 / 10)) ≤ 1 := by
    intro g
    unfold exThreeSpeed
    split_ifs <;> exact ⟨by positivity, by rw [div_le_one (by norm_num)]; linarith⟩
  refine ⟨xsStar_ok exThreeTimed hcoef0, fun g hg n hn i hi => ?_, fun n _ => ?_, ?_, ?_, ?_⟩
  · have h1 := exFine_mu n hn
    have hm : exFine.mm i ≤ 1 := by
      show (if i = 1 then 1 else 0) ≤ 1
      split <;> omega
    have hm' : ((exFine.mm i : ℕ) : ℚ) ≤ 1 := by exact_mod_cast hm
    have hb : exThreeTotal (exFine.mm i) g ≤ 3 := by
      unfold exThreeTotal; split_ifs <;> linarith
    have := (hterm g).2
    have h2 : 1 / 4 ≤ |exThree.angleX n| := h1
    show (exThreeTotal (exFine.mm i) g + _) * (1 / 16 : ℚ) ≤ _
    linarith
  · show (0 : ℚ) ≤ 1 / 4; norm_num
  · show ∑ n ∈ range 4, (1 / 4 : ℚ) = 1; norm_num
  · intro i _ g _ g' _
    simp only [exThreeScatter, exThreeFission]
    split_ifs <;> norm_num
  · intro i _ g hg
    have hg : g < 3 := hg
    have h0 : (0 : ℚ) ≤ ((exThree.mm i : ℕ) : ℚ) := by positivity
    have h2 := (hterm g).1
    show ∑ g' ∈ range 3, (exThreeScatter _ g g' + exThreeFission _ g g')
      ≤ 1 / 2 * (exThreeTotal (exThree.mm i) g + _)
    have h3 : ∑ g' ∈ range 3, (exThreeScatter (exThree.mm i) g g' + exThreeFission (exThree.mm i) g g')
        ≤ 1 / 2 * exThreeTotal (exThree.mm i) g := by
      simp only [sum_range_succ, sum_range_zero, exThreeScatter, exThreeFission, exThreeTotal]
      interval_cases g <;> norm_num <;> linarith
    linarith

example (second : Bool) := C178_coarse_groups_kept second exThree (.list 1 0) (fun _ => []) (fun _ _ => false) 2
  exThreeTotal (fun m g g' => (m + g + g' : ℕ) / 10) exThreeFission exThreeSpeed exExternal exBoundary 2
  exThreeGrid 3 (1 / 10) (fun i n g => (i + n + g : ℕ)) exThreeTimed (by show 0 < 3; omega) exThreeGridFor
  exThreeFlat (Or.inr (le_refl _)) (Or.inl rfl)

example (second : Bool) := C179_flat_groups_exact second exThree (.list 1 0) (fun _ => []) (fun _ _ => false) 2
  exThreeTotal exThreeScatter exThreeFission exThreeSpeed exExternal exBoundary 2
  exThreeGrid 3 (1 / 10) (fun i n g => (i + n + g : ℕ)) exThreeTimed (by show 0 < 3; omega) exThreeGridFor
  exThreeFlat (Or.inr (le_refl _)) (Or.inl rfl) exThreeColumns

example (second : Bool) := C179_flat_groups_is_timed second exThree (.list 1 0) (fun _ => []) (fun _ _ => false) 2
  exThreeTotal exThreeScatter exThreeFission exThreeSpeed exExternal exBoundary 2
  exThreeGrid 3 (1 / 10) (fun i n g => (i + n + g : ℕ)) exThreeTimed (by show 0 < 3; omega) exThreeGridFor
  exThreeFlat (Or.inr (le_refl _)) (Or.inl rfl) exThreeColumns (1 / 2) (by norm_num) (by norm_num)
  (fun j _ => exThreeContractive second j)

example (second : Bool) := C179_flat_groups_is_timed_downscatter second exThree (.list 1 0) (fun _ => [])
  (fun _ _ => false) 2
  exThreeTotal exThreeScatter exThreeFission exThreeSpeed exExternal exBoundary 2
  exThreeGrid 3 (1 / 10) (fun i n g => (i + n + g : ℕ)) exThreeTimed (by show 0 < 3; omega) exThreeGridFor
  exThreeFlat (Or.inr (le_refl _)) (Or.inl rfl) exThreeColumns (1 / 2) (by norm_num) (by norm_num)
  (fun j _ => exThreeContractive second j) (fun m g g' h h' => by
    have h' : g' < 3 := h'
    simp only [exThreeScatter, exThreeFission, if_neg (show ¬ (g = 2 ∧ g' < 2) by omega), add_zero])

end Discrete1.Props
