import Verif.Model.Hybrid
import Verif.Model.Tools
import Verif.Lemmas.Hybrid
import Mathlib.Data.Rat.Floor
import Mathlib.Tactic.IntervalCases
import Mathlib.Algebra.BigOperators.Field
import Mathlib.Data.Rat.Cast.Order
import Mathlib.Algebra.Order.Floor.Semiring

/-!
# C01 - C07: energy grid coarsening (`discrete1/utils/hybrid.py`)
-/

set_option linter.unusedSectionVars false
set_option linter.unusedSimpArgs false

namespace Discrete1.Props

open Finset Discrete1.Hybrid Discrete1.Spec

/-! ## C01 -/

/-- The result of `energy_coarse_index(fine, coarse)` is `r`: a balanced partition. -/
def BalancedPartition (fine coarse : ℕ) (e : ℕ → ℕ) : Prop :=
  IsPartition coarse fine e ∧
  (∀ c < coarse, e (c + 1) - e c = fine / coarse ∨ e (c + 1) - e c = fine / coarse + 1) ∧
  ((range coarse).filter (fun c => e (c + 1) - e c = fine / coarse + 1)).card = fine % coarse

theorem widthsWith_cases (pos : ℕ → ℕ) (fine coarse i : ℕ) :
    widthsWith pos fine coarse i = fine / coarse ∨
      widthsWith pos fine coarse i = fine / coarse + 1 := by
  unfold widthsWith; split <;> simp

/-- C01, for *any* distinct linspace positions inside the coarse grid. -/
theorem C01_energy_coarse_index_any_positions (pos : ℕ → ℕ) (fine coarse : ℕ) (hc : 1 ≤ coarse)
    (hf : coarse ≤ fine) (hlt : ∀ k < fine % coarse, pos k < coarse)
    (hinj : ∀ k < fine % coarse, ∀ l < fine % coarse, pos k = pos l → k = l) :
    ∃ e, energyCoarseIndexWith pos fine coarse = .ok e ∧ BalancedPartition fine coarse e := by
  have hsum := widths_sum pos fine coarse hlt hinj
  have hw : ∀ k, accum (k + 1) (widthsWith pos fine coarse) - accum k (widthsWith pos fine coarse)
      = widthsWith pos fine coarse k := by
    intro k; rw [accum_eq_sum, accum_eq_sum, sum_range_succ]; omega
  refine ⟨fun k => accum k (widthsWith pos fine coarse), ?_, ⟨?_, ?_, ?_⟩, ?_, ?_⟩
  · unfold energyCoarseIndexWith
    rw [if_neg (by omega), if_pos (by rw [accum_eq_sum]; exact hsum)]
  · rfl
  · simp only [accum_eq_sum]; exact hsum
  · intro c _
    have h1 := hw c
    have h2 := widthsWith_cases pos fine coarse c
    have h3 : 1 ≤ fine / coarse := (Nat.one_le_div_iff (by omega)).mpr hf
    show accum c _ < accum (c + 1) _
    omega
  · intro c _
    simp only [hw]
    exact widthsWith_cases _ _ _ _
  · simp only [hw]
    rw [← card_hit pos (fine % coarse) coarse hlt hinj]
    congr 1
    ext i
    simp only [mem_filter, and_congr_right_iff]
    intro _
    unfold widthsWith
    split <;> simp_all

/-- C01: `energy_coarse_index(fine, coarse)` returns a balanced partition; the assertion on line 30
never fires. -/
theorem C01_energy_coarse_index (fine coarse : ℕ) (hc : 1 ≤ coarse) (hf : coarse ≤ fine) :
    ∃ e, energyCoarseIndex fine coarse = .ok e ∧ BalancedPartition fine coarse e := by
  have hmod : fine % coarse < coarse := Nat.mod_lt _ (by omega)
  exact C01_energy_coarse_index_any_positions _ fine coarse hc hf
    (fun k hk => linspace_lt hc hk) (linspace_inj (by omega))

/-- C01 holds even when the floating point linspace values `y k` deviate from the exact
`k (coarse-1)/(r-1)`, as long as consecutive values differ by at least one (true for every error
below `1/(2(r-1))`, see the next theorem) and stay inside the grid. -/
theorem C01_energy_coarse_index_rounded (y : ℕ → ℚ) (fine coarse : ℕ) (hc : 1 ≤ coarse)
    (hf : coarse ≤ fine) (h0 : ∀ k < fine % coarse, 0 ≤ y k)
    (h1 : ∀ k < fine % coarse, y k < coarse)
    (hstep : ∀ k, k + 1 < fine % coarse → y k + 1 ≤ y (k + 1)) :
    ∃ e, energyCoarseIndexWith (fun k => ⌊y k⌋₊) fine coarse = .ok e ∧
      BalancedPartition fine coarse e := by
  apply C01_energy_coarse_index_any_positions _ _ _ hc hf
  · intro k hk
    exact (Nat.floor_lt (h0 k hk)).mpr (h1 k hk)
  · have mono : ∀ l < fine % coarse, ∀ k < l, ⌊y k⌋₊ < ⌊y l⌋₊ := by
      intro l
      induction l with
      | zero => intro _ k hk; omega
      | succ l ih =>
        intro hl k hk
        have hs : ⌊y l⌋₊ + 1 ≤ ⌊y (l + 1)⌋₊ := by
          rw [← Nat.floor_add_one (h0 l (by omega))]
          exact Nat.floor_mono (hstep l hl)
        rcases Nat.lt_succ_iff_lt_or_eq.mp hk with h | h
        · have := ih (by omega) k h; omega
        · subst h; omega
    intro k hk l hl h
    rcases Nat.lt_trichotomy k l with hh | hh | hh
    · have := mono l hl k hh; omega
    · exact hh
    · have := mono k hk l hh; omega

/-- C01: an absolute error of at most `1/(2(r-1))` in each linspace value is harmless. -/
theorem C01_energy_coarse_index_rounding_error (y : ℕ → ℚ) (fine coarse : ℕ)
    (hc : 1 ≤ coarse) (hf : coarse ≤ fine) (hr : 2 ≤ fine % coarse)
    (h0 : ∀ k < fine % coarse, 0 ≤ y k) (h1 : ∀ k < fine % coarse, y k < coarse)
    (herr : ∀ k < fine % coarse,
      |y k - k * ((coarse - 1 : ℕ) : ℚ) / ((fine % coarse - 1 : ℕ) : ℚ)|
        ≤ 1 / (2 * ((fine % coarse - 1 : ℕ) : ℚ))) :
    ∃ e, energyCoarseIndexWith (fun k => ⌊y k⌋₊) fine coarse = .ok e ∧
      BalancedPartition fine coarse e := by
  apply C01_energy_coarse_index_rounded y fine coarse hc hf h0 h1
  intro k hk
  have hmod : fine % coarse < coarse := Nat.mod_lt _ (by omega)
  have ha := abs_le.mp (herr k (by omega))
  have hb := abs_le.mp (herr (k + 1) hk)
  obtain ⟨m, hm⟩ : ∃ m, fine % coarse - 1 = m + 1 := ⟨fine % coarse - 2, by omega⟩
  obtain ⟨d, hd⟩ : ∃ d, coarse - 1 = fine % coarse - 1 + 1 + d := ⟨coarse - 1 - (fine % coarse), by omega⟩
  rw [hd, hm] at ha hb
  push_cast at ha hb
  have hM : (0 : ℚ) < (m : ℚ) + 1 := by positivity
  have e1 : ((k : ℚ) + 1) * ((m : ℚ) + 1 + 1 + d) / ((m : ℚ) + 1)
      = (k : ℚ) * ((m : ℚ) + 1 + 1 + d) / ((m : ℚ) + 1) + 1 + (1 + d) / ((m : ℚ) + 1) := by
    field_simp; ring
  have e2 : (1 : ℚ) / (2 * ((m : ℚ) + 1)) + 1 / (2 * ((m : ℚ) + 1)) = 1 / ((m : ℚ) + 1) := by
    field_simp; ring
  have e3 : (1 : ℚ) / ((m : ℚ) + 1) ≤ (1 + d) / ((m : ℚ) + 1) := by
    apply div_le_div_of_nonneg_right _ hM.le
    have : (0 : ℚ) ≤ d := Nat.cast_nonneg d
    linarith
  rw [e1] at hb
  linarith [ha.1, ha.2, hb.1, hb.2]

/-- C01: a zero coarse group count is rejected (division by zero), not silently accepted. -/
theorem C01_zero_coarse (fine : ℕ) : energyCoarseIndex fine 0 = .error .zeroDivision := rfl

-- concrete case: 87 fine groups onto 10 coarse groups, remainder 7
example : ∃ e, energyCoarseIndex 87 10 = .ok e ∧ BalancedPartition 87 10 e ∧ (87 : ℕ) % 10 = 7 := by
  obtain ⟨e, h1, h2⟩ := C01_energy_coarse_index 87 10 (by omega) (by omega)
  exact ⟨e, h1, h2, rfl⟩

/-! ## C02 -/

/-- C02: `collided_index` returns the coarse group containing each fine group, and that group is
unique. -/
theorem C02_collided_index {C G : ℕ} {e : ℕ → ℕ} (h : IsPartition C G e) {g : ℕ} (hg : g < G) :
    (collidedIndex C e g < C ∧ InBlock e (collidedIndex C e g) g) ∧
      ∀ c < C, InBlock e c g → c = collidedIndex C e g := by
  obtain ⟨c, hc, hb⟩ := exists_block (C := C) h.first (g := g) (by rw [h.last]; exact hg)
  have := collidedIndex_of_block h hc hb
  rw [this]
  exact ⟨⟨hc, hb⟩, fun c' hc' hb' => block_unique h hc' hc hb' hb⟩

/-- C02: `uncollided_index` is the index array itself. -/
theorem C02_uncollided_index {C G : ℕ} {e : ℕ → ℕ} (h : IsPartition C G e) :
    ∀ c ≤ C, uncollidedIndex C e c = e c := by
  unfold uncollidedIndex
  have key : ∀ n ≤ C, ∀ c ≤ n,
      loop n (fun count idx => setAt idx (count + 1) (e (count + 1))) (fun _ => 0) c = e c := by
    intro n
    induction n with
    | zero => intro _ c hc; rw [Nat.le_zero.mp hc, loop_zero, h.first]
    | succ n ih =>
      intro hn c hc
      rw [loop_succ, setAt_apply]
      split
      · rename_i h; rw [h]
      · exact ih (by omega) c (by omega)
  exact key C (le_refl _)

/-- Concrete partition used by the examples: `[0, 2, 3, 6]`. -/
def exPart : ℕ → ℕ := fun k => match k with | 0 => 0 | 1 => 2 | 2 => 3 | _ => 6

theorem exPart_isPartition : IsPartition 3 6 exPart :=
  ⟨rfl, rfl, by intro c hc; interval_cases c <;> simp [exPart]⟩

/-- Concrete strictly increasing energy grid `0, 1, 3, 6, 10, 15, 21`. -/
def exEdges : ℕ → ℚ := fun g => (g : ℚ) * (g + 1) / 2

theorem exEdges_increasing (G : ℕ) : Increasing G exEdges := by
  intro g _
  unfold exEdges
  push_cast
  have : (0 : ℚ) ≤ g := Nat.cast_nonneg g
  linarith

example : collidedIndex 3 exPart 4 = 2 ∧ uncollidedIndex 3 exPart 2 = 3 := by
  refine ⟨?_, C02_uncollided_index exPart_isPartition 2 (by omega)⟩
  exact ((C02_collided_index exPart_isPartition (g := 4) (by omega)).2 2 (by omega)
    (by unfold InBlock exPart; simp)).symm

/-! ## C03 -/

section C03
variable {K : Type*} [Field K] [LinearOrder K] [IsStrictOrderedRing K]

/-- A fine grid selected from `edges` by `gidxF` is increasing when `gidxF` is a partition. -/
theorem increasing_comp {G N : ℕ} {edges : ℕ → K} {gidxF : ℕ → ℕ} (hE : Increasing N edges)
    (hF : IsPartition G N gidxF) : Increasing G (fun g => edges (gidxF g)) := by
  intro g hg
  refine increasing_lt hE _ ?_ _ (hF.strict g hg)
  have := hF.mono (i := g + 1) (j := G) (by omega) (le_refl _)
  rw [hF.last] at this; exact this

/-- C03: the factor is the share of the fine group in the energy width of its coarse group. -/
theorem C03_factor_value {N G C : ℕ} {edges : ℕ → K} {gidxF gidxC : ℕ → ℕ}
    (hC : IsPartition C G gidxC) {c g : ℕ} (hc : c < C) (hb : InBlock gidxC c g) :
    (indexing C edges gidxF gidxC).2.2 g =
      (edges (gidxF (g + 1)) - edges (gidxF g)) /
        (edges (gidxF (gidxC (c + 1))) - edges (gidxF (gidxC c))) := by
  have := N
  unfold indexing
  exact hybridFactor_of_block hC _ _ hc hb

/-- C03: factors are positive. -/
theorem C03_factor_pos {N G C : ℕ} {edges : ℕ → K} {gidxF gidxC : ℕ → ℕ}
    (hE : Increasing N edges) (hF : IsPartition G N gidxF) (hC : IsPartition C G gidxC)
    {g : ℕ} (hg : g < G) : 0 < (indexing C edges gidxF gidxC).2.2 g := by
  obtain ⟨c, hc, hb⟩ := exists_block (C := C) hC.first (g := g) (by rw [hC.last]; exact hg)
  rw [C03_factor_value (N := N) hC hc hb]
  have hi := increasing_comp hE hF
  exact div_pos (sub_pos.mpr (hi g hg)) (diffIdx_pos hi hC hc)

/-- C03: factors sum to one over every coarse group. -/
theorem C03_factor_sum {N G C : ℕ} {edges : ℕ → K} {gidxF gidxC : ℕ → ℕ}
    (hE : Increasing N edges) (hF : IsPartition G N gidxF) (hC : IsPartition C G gidxC)
    {c : ℕ} (hc : c < C) :
    ∑ g ∈ Ico (gidxC c) (gidxC (c + 1)), (indexing C edges gidxF gidxC).2.2 g = 1 := by
  have hi := increasing_comp hE hF
  have hpos := diffIdx_pos hi hC hc
  rw [sum_congr rfl (fun g hg => C03_factor_value (N := N) hC hc
    ⟨(mem_Ico.mp hg).1, (mem_Ico.mp hg).2⟩), ← sum_div]
  have := sum_diff_block (fun g => edges (gidxF g)) (le_of_lt (hC.strict c hc))
  unfold diff at this
  rw [this]
  exact div_self (ne_of_gt hpos)

/-- C03: spreading a coarse flux to the fine grid (`_hybrid_combine_fluxes` with the index arrays of
`indexing`) and adding it up again (`_coarsen_flux`) returns the coarse flux, in every cell. -/
theorem C03_spread_then_coarsen {N G C : ℕ} {edges : ℕ → K} {gidxF gidxC : ℕ → ℕ}
    (hE : Increasing N edges) (hF : IsPartition G N gidxF) (hC : IsPartition C G gidxC)
    (fluxC : ℕ → ℕ → K) (ii : ℕ) {c : ℕ} (hc : c < C) :
    Tools.coarsenFlux (indexing C edges gidxF gidxC).1
      (Tools.hybridCombineFluxes fluxC (indexing C edges gidxF gidxC).2.1
        (indexing C edges gidxF gidxC).2.2) ii c = fluxC ii c := by
  unfold Tools.coarsenFlux Tools.hybridCombineFluxes
  have e1 : ∀ k ≤ C, (indexing C edges gidxF gidxC).1 k = gidxC k := C02_uncollided_index hC
  rw [e1 c (by omega), e1 (c + 1) (by omega)]
  rw [sum_congr rfl (g := fun g => fluxC ii c * (indexing C edges gidxF gidxC).2.2 g)
    (fun g hg => by
      rw [show (indexing C edges gidxF gidxC).2.1 g = c from
        collidedIndex_of_block hC hc ⟨(mem_Ico.mp hg).1, (mem_Ico.mp hg).2⟩]),
    ← mul_sum, C03_factor_sum hE hF hC hc, mul_one]

/-- C03: hence the total over all groups is unchanged as well. -/
theorem C03_spread_total {N G C : ℕ} {edges : ℕ → K} {gidxF gidxC : ℕ → ℕ}
    (hE : Increasing N edges) (hF : IsPartition G N gidxF) (hC : IsPartition C G gidxC)
    (fluxC : ℕ → ℕ → K) (ii : ℕ) :
    ∑ g ∈ range G, Tools.hybridCombineFluxes fluxC (indexing C edges gidxF gidxC).2.1
        (indexing C edges gidxF gidxC).2.2 ii g = ∑ c ∈ range C, fluxC ii c := by
  rw [← hC.sum_blocks]
  refine sum_congr rfl fun c hc => ?_
  have hc := mem_range.mp hc
  have := C03_spread_then_coarsen hE hF hC fluxC ii hc
  unfold Tools.coarsenFlux at this
  have e1 : ∀ k ≤ C, (indexing C edges gidxF gidxC).1 k = gidxC k := C02_uncollided_index hC
  rw [e1 c (by omega), e1 (c + 1) (by omega)] at this
  exact this

/-- The identity index array on `G` groups is a partition. -/
theorem id_isPartition (G : ℕ) : IsPartition G G (fun k => k) := ⟨rfl, rfl, fun c _ => by simp⟩

example : ∑ g ∈ Ico 3 6, (indexing 3 exEdges (fun k => k) exPart).2.2 g = 1 :=
  C03_factor_sum (exEdges_increasing 6) (id_isPartition 6) exPart_isPartition (c := 2) (by omega)

/-! ## C04 -/

/-- C04 (unweighted): the source is preserved in every coarse group. -/
theorem C04_unweighted_block {G : ℕ} (external edges : ℕ → K) (e : ℕ → ℕ) (hG : G ≠ 1) (c : ℕ) :
    coarsenExternal G external edges e false c = ∑ g ∈ Ico (e c) (e (c + 1)), external g := by
  simp [coarsenExternal, hG]

/-- C04 (unweighted): total source on the coarse grid = total source on the fine grid. -/
theorem C04_unweighted_total {C G : ℕ} (external edges : ℕ → K) {e : ℕ → ℕ}
    (he : IsPartition C G e) (hG : G ≠ 1) :
    ∑ c ∈ range C, coarsenExternal G external edges e false c = ∑ g ∈ range G, external g := by
  rw [sum_congr rfl fun c _ => C04_unweighted_block external edges e hG c, he.sum_blocks]

/-- C04 (weighted): energy-integrated source preserved in every coarse group. -/
theorem C04_weighted_block {C G : ℕ} (external : ℕ → K) {edges : ℕ → K} {e : ℕ → ℕ}
    (hE : Increasing G edges) (he : IsPartition C G e) (hG : G ≠ 1) {c : ℕ} (hc : c < C) :
    coarsenExternal G external edges e true c * (edges (e (c + 1)) - edges (e c)) =
      ∑ g ∈ Ico (e c) (e (c + 1)), external g * (edges (g + 1) - edges g) := by
  have hpos := diffIdx_pos hE he hc
  simp only [coarsenExternal, hG, if_false, if_true]
  rw [show edges (e (c + 1)) - edges (e c) = diffIdx edges e c from rfl,
    div_mul_cancel₀ _ (ne_of_gt hpos)]
  rfl

/-- C04 (weighted): energy-integrated source preserved on the whole grid. -/
theorem C04_weighted_total {C G : ℕ} (external : ℕ → K) {edges : ℕ → K} {e : ℕ → ℕ}
    (hE : Increasing G edges) (he : IsPartition C G e) (hG : G ≠ 1) :
    ∑ c ∈ range C, coarsenExternal G external edges e true c * (edges (e (c + 1)) - edges (e c)) =
      ∑ g ∈ range G, external g * (edges (g + 1) - edges g) := by
  rw [← he.sum_blocks]
  exact sum_congr rfl fun c hc => C04_weighted_block external hE he hG (mem_range.mp hc)

/-- C04: one-group arrays are returned unchanged. -/
theorem C04_one_group (external edges : ℕ → K) (e : ℕ → ℕ) (w : Bool) :
    coarsenExternal 1 external edges e w = external := by simp [coarsenExternal]

example : ∑ c ∈ range 3, coarsenExternal 6 (fun g => (g : ℚ)) exEdges exPart false c = 15 := by
  rw [C04_unweighted_total _ _ exPart_isPartition (by omega)]
  simp [sum_range_succ]; norm_num

/-! ## C05 -/

/-- C05: bounds of the fine values are inherited by the coarse value. -/
theorem C05_between {C G : ℕ} (xs : ℕ → ℕ → K) {edges : ℕ → K} {e : ℕ → ℕ}
    (hE : Increasing G edges) (he : IsPartition C G e) {c : ℕ} (hc : c < C) (mat : ℕ) (lo hi : K)
    (hlo : ∀ g, InBlock e c g → lo ≤ xs mat g) (hhi : ∀ g, InBlock e c g → xs mat g ≤ hi) :
    lo ≤ xsVectorCoarsen xs edges e mat c ∧ xsVectorCoarsen xs edges e mat c ≤ hi := by
  have hpos := diffIdx_pos hE he hc
  have hs := sum_diff_block edges (le_of_lt (he.strict c hc))
  have hd : ∀ g ∈ Ico (e c) (e (c + 1)), 0 ≤ diff edges g := fun g hg =>
    (diff_pos hE (block_lt he hc (mem_Ico.mp hg).2)).le
  unfold xsVectorCoarsen
  constructor
  · rw [le_div_iff₀ hpos]
    unfold diffIdx; rw [← hs, mul_sum]
    exact sum_le_sum fun g hg => mul_le_mul_of_nonneg_right
      (hlo g ⟨(mem_Ico.mp hg).1, (mem_Ico.mp hg).2⟩) (hd g hg)
  · rw [div_le_iff₀ hpos]
    unfold diffIdx; rw [← hs, mul_sum]
    exact sum_le_sum fun g hg => mul_le_mul_of_nonneg_right
      (hhi g ⟨(mem_Ico.mp hg).1, (mem_Ico.mp hg).2⟩) (hd g hg)

/-- C05: constants are preserved. -/
theorem C05_constant {C G : ℕ} (xs : ℕ → ℕ → K) {edges : ℕ → K} {e : ℕ → ℕ}
    (hE : Increasing G edges) (he : IsPartition C G e) {c : ℕ} (hc : c < C) (mat : ℕ) (s : K)
    (h : ∀ g, InBlock e c g → xs mat g = s) : xsVectorCoarsen xs edges e mat c = s := by
  obtain ⟨h1, h2⟩ := C05_between xs hE he hc mat s s (fun g hg => (h g hg).ge)
    (fun g hg => (h g hg).le)
  exact le_antisymm h2 h1

/-- C05: the identity partition changes nothing. -/
theorem C05_identity {G : ℕ} (xs : ℕ → ℕ → K) {edges : ℕ → K} (hE : Increasing G edges)
    {g : ℕ} (hg : g < G) (mat : ℕ) : xsVectorCoarsen xs edges (fun k => k) mat g = xs mat g := by
  apply C05_constant xs hE (id_isPartition G) hg
  intro g' hg'
  have := hg'.1; have := hg'.2
  have : g' = g := by simp only at *; omega
  rw [this]

/-- C05: the reaction rate of a flux that is flat per unit energy is preserved. -/
theorem C05_rate {C G : ℕ} (xs : ℕ → ℕ → K) {edges : ℕ → K} {e : ℕ → ℕ}
    (hE : Increasing G edges) (he : IsPartition C G e) {c : ℕ} (hc : c < C) (mat : ℕ) (f : K) :
    xsVectorCoarsen xs edges e mat c * (f * (edges (e (c + 1)) - edges (e c))) =
      ∑ g ∈ Ico (e c) (e (c + 1)), xs mat g * (f * (edges (g + 1) - edges g)) := by
  have hpos := diffIdx_pos hE he hc
  unfold xsVectorCoarsen
  rw [show edges (e (c + 1)) - edges (e c) = diffIdx edges e c from rfl]
  rw [mul_comm f, ← mul_assoc, div_mul_cancel₀ _ (ne_of_gt hpos), sum_mul]
  refine sum_congr rfl fun g _ => ?_
  unfold diff; ring

/-- C05: coarsening `G → C1 → C2` in two stages equals coarsening `G → C2` in one stage
(`e2 ∘ e1` is the composed index array). -/
theorem C05_tower {C1 C2 G : ℕ} (xs : ℕ → ℕ → K) {edges : ℕ → K} {e1 e2 : ℕ → ℕ}
    (hE : Increasing G edges) (h1 : IsPartition C1 G e1) (h2 : IsPartition C2 C1 e2)
    {c : ℕ} (hc : c < C2) (mat : ℕ) :
    xsVectorCoarsen (xsVectorCoarsen xs edges e1) (fun k => edges (e1 k)) e2 mat c =
      xsVectorCoarsen xs edges (fun k => e1 (e2 k)) mat c := by
  unfold xsVectorCoarsen
  congr 1
  have hle : e2 (c + 1) ≤ C1 := by
    have := h2.mono (i := c + 1) (j := C2) (by omega) (le_refl _); rwa [h2.last] at this
  have hin : ∀ b ∈ Ico (e2 c) (e2 (c + 1)),
      (∑ g ∈ Ico (e1 b) (e1 (b + 1)), xs mat g * diff edges g) / diffIdx edges e1 b *
        diff (fun k => edges (e1 k)) b = ∑ g ∈ Ico (e1 b) (e1 (b + 1)), xs mat g * diff edges g := by
    intro b hb
    have hb' : b < C1 := by have := (mem_Ico.mp hb).2; omega
    exact div_mul_cancel₀ _ (ne_of_gt (diffIdx_pos hE h1 hb'))
  rw [sum_congr rfl hin]
  -- consecutive blocks of e1 from e2 c to e2 (c+1)
  have gen : ∀ n, e2 c + n ≤ C1 → ∑ b ∈ Ico (e2 c) (e2 c + n),
      ∑ g ∈ Ico (e1 b) (e1 (b + 1)), xs mat g * diff edges g =
      ∑ g ∈ Ico (e1 (e2 c)) (e1 (e2 c + n)), xs mat g * diff edges g := by
    intro n
    induction n with
    | zero => simp
    | succ n ih =>
      intro hn
      rw [← add_assoc, sum_Ico_succ_top (by omega), ih (by omega), sum_Ico_consecutive]
      · exact h1.mono (by omega) (by omega)
      · exact (h1.strict _ (by omega)).le
  obtain ⟨n, hn⟩ : ∃ n, e2 (c + 1) = e2 c + n :=
    ⟨e2 (c + 1) - e2 c, by have := h2.strict c hc; omega⟩
  have hg := gen n (by omega)
  rw [← hn] at hg
  exact hg

example : (2 : ℚ) ≤ xsVectorCoarsen (fun _ g => (g : ℚ) + 2) exEdges exPart 0 0 ∧
    xsVectorCoarsen (fun _ g => (g : ℚ) + 2) exEdges exPart 0 0 ≤ 3 := by
  apply C05_between _ (exEdges_increasing 6) exPart_isPartition (by omega)
  · intro g hg; have : (0 : ℚ) ≤ g := Nat.cast_nonneg g; linarith
  · intro g hg
    have : g ≤ 1 := by have := hg.2; simp [exPart] at this; omega
    have : (g : ℚ) ≤ 1 := by exact_mod_cast this
    linarith

/-! ## C06 -/

/-- C06: coarse group-to-group rates of a flat flux equal the fine rates. -/
theorem C06_rates {C G : ℕ} (xs : ℕ → ℕ → ℕ → K) {edges : ℕ → K} {e : ℕ → ℕ}
    (hE : Increasing G edges) (he : IsPartition C G e) (mat : ℕ) (a : ℕ) {b : ℕ} (hb : b < C)
    (f : K) :
    ∃ m, xsMatrixCoarsen (some xs) edges e = some m ∧
      m mat a b * (f * (edges (e (b + 1)) - edges (e b))) =
        ∑ og ∈ Ico (e a) (e (a + 1)), ∑ ig ∈ Ico (e b) (e (b + 1)),
          xs mat og ig * (f * (edges (ig + 1) - edges ig)) := by
  refine ⟨_, rfl, ?_⟩
  have hpos := diffIdx_pos hE he hb
  rw [show edges (e (b + 1)) - edges (e b) = diffIdx edges e b from rfl]
  rw [mul_comm f, ← mul_assoc, div_mul_cancel₀ _ (ne_of_gt hpos), sum_mul]
  refine sum_congr rfl fun og _ => ?_
  rw [sum_mul]
  refine sum_congr rfl fun ig _ => ?_
  unfold diff; ring

/-- C06: the coarse matrix applied to the coarse version of a flat flux, summed over incoming coarse
groups, equals the fine matrix applied to the fine flux, summed over each outgoing coarse group. -/
theorem C06_full_rate {C G : ℕ} (xs : ℕ → ℕ → ℕ → K) {edges : ℕ → K} {e : ℕ → ℕ}
    (hE : Increasing G edges) (he : IsPartition C G e) (mat : ℕ) (a : ℕ) (f : K) :
    ∃ m, xsMatrixCoarsen (some xs) edges e = some m ∧
      ∑ b ∈ range C, m mat a b * (f * (edges (e (b + 1)) - edges (e b))) =
        ∑ og ∈ Ico (e a) (e (a + 1)), ∑ ig ∈ range G,
          xs mat og ig * (f * (edges (ig + 1) - edges ig)) := by
  refine ⟨_, rfl, ?_⟩
  have hin : ∀ og, ∑ ig ∈ range G, xs mat og ig * (f * (edges (ig + 1) - edges ig)) =
      ∑ b ∈ range C, ∑ ig ∈ Ico (e b) (e (b + 1)), xs mat og ig * (f * (edges (ig + 1) - edges ig)) :=
    fun og => (he.sum_blocks _).symm
  rw [sum_congr rfl fun og _ => hin og, sum_comm]
  refine sum_congr rfl fun b hb => ?_
  obtain ⟨m, hm, heq⟩ := C06_rates xs hE he mat a (mem_range.mp hb) f
  cases hm
  exact heq

/-- C06: if on the fine grid no group scatters out more than its total cross section, the same holds
for the coarsened cross sections. -/
theorem C06_conservation {C G : ℕ} (total : ℕ → ℕ → K) (xs : ℕ → ℕ → ℕ → K) {edges : ℕ → K}
    {e : ℕ → ℕ} (hE : Increasing G edges) (he : IsPartition C G e) (mat : ℕ)
    (h : ∀ ig < G, ∑ og ∈ range G, xs mat og ig ≤ total mat ig) {b : ℕ} (hb : b < C) :
    ∃ m, xsMatrixCoarsen (some xs) edges e = some m ∧
      ∑ a ∈ range C, m mat a b ≤ xsVectorCoarsen total edges e mat b := by
  refine ⟨_, rfl, ?_⟩
  have hpos := diffIdx_pos hE he hb
  unfold xsVectorCoarsen
  rw [← sum_div, div_le_div_iff_of_pos_right hpos, he.sum_blocks, sum_comm]
  refine sum_le_sum fun ig hig => ?_
  have hlt := block_lt he hb (mem_Ico.mp hig).2
  rw [← sum_mul]
  exact mul_le_mul_of_nonneg_right (h ig hlt) (diff_pos hE hlt).le

/-- C06: equality (pure scatterers stay pure scatterers). -/
theorem C06_conservation_eq {C G : ℕ} (total : ℕ → ℕ → K) (xs : ℕ → ℕ → ℕ → K) {edges : ℕ → K}
    {e : ℕ → ℕ} (he : IsPartition C G e) (mat : ℕ)
    (h : ∀ ig < G, ∑ og ∈ range G, xs mat og ig = total mat ig) {b : ℕ} (hb : b < C) :
    ∃ m, xsMatrixCoarsen (some xs) edges e = some m ∧
      ∑ a ∈ range C, m mat a b = xsVectorCoarsen total edges e mat b := by
  refine ⟨_, rfl, ?_⟩
  unfold xsVectorCoarsen
  rw [← sum_div, he.sum_blocks, sum_comm]
  congr 1
  refine sum_congr rfl fun ig hig => ?_
  rw [← sum_mul, h ig (block_lt he hb (mem_Ico.mp hig).2)]

/-- C06: the identity partition changes nothing. -/
theorem C06_identity {G : ℕ} (xs : ℕ → ℕ → ℕ → K) {edges : ℕ → K} (hE : Increasing G edges)
    (mat a : ℕ) {b : ℕ} (hb : b < G) :
    ∃ m, xsMatrixCoarsen (some xs) edges (fun k => k) = some m ∧ m mat a b = xs mat a b := by
  refine ⟨_, rfl, ?_⟩
  have hpos := diff_pos hE hb
  simp only [diffIdx, Nat.Ico_succ_singleton, sum_singleton]
  unfold diff at *
  exact mul_div_cancel_right₀ _ (ne_of_gt hpos)

/-- C06: an absent matrix stays absent. -/
theorem C06_none (edges : ℕ → K) (e : ℕ → ℕ) : xsMatrixCoarsen (K := K) none edges e = none := rfl

/-- C06: `coarsen_materials` returns the coarse total, scatter and fission data in that order: for a
flux that is flat per unit energy all three reaction rates of coarse group `b` are the fine ones. -/
theorem C06_coarsen_materials {C G : ℕ} (total : ℕ → ℕ → K) (xs xf : ℕ → ℕ → ℕ → K) {edges : ℕ → K}
    {e : ℕ → ℕ} (hE : Increasing G edges) (he : IsPartition C G e) (mat a : ℕ) {b : ℕ} (hb : b < C)
    (f : K) :
    ∃ t s x, coarsenMaterials total (some xs) (some xf) edges e = (t, some s, some x) ∧
      t mat b * (f * (edges (e (b + 1)) - edges (e b))) =
        ∑ g ∈ Ico (e b) (e (b + 1)), total mat g * (f * (edges (g + 1) - edges g)) ∧
      s mat a b * (f * (edges (e (b + 1)) - edges (e b))) =
        ∑ og ∈ Ico (e a) (e (a + 1)), ∑ ig ∈ Ico (e b) (e (b + 1)),
          xs mat og ig * (f * (edges (ig + 1) - edges ig)) ∧
      x mat a b * (f * (edges (e (b + 1)) - edges (e b))) =
        ∑ og ∈ Ico (e a) (e (a + 1)), ∑ ig ∈ Ico (e b) (e (b + 1)),
          xf mat og ig * (f * (edges (ig + 1) - edges ig)) := by
  obtain ⟨s, hs, hse⟩ := C06_rates xs hE he mat a hb f
  obtain ⟨x, hx, hxe⟩ := C06_rates xf hE he mat a hb f
  exact ⟨_, s, x, by unfold coarsenMaterials; rw [hs, hx], C05_rate total hE he hb mat f, hse, hxe⟩

example : ∃ m, xsMatrixCoarsen (some fun _ og ig => if og = ig then (1 / 2 : ℚ) else 0) exEdges exPart
      = some m ∧ ∑ a ∈ range 3, m 0 a 1 ≤
        xsVectorCoarsen (fun _ _ => (1 : ℚ)) exEdges exPart 0 1 := by
  apply C06_conservation _ _ (exEdges_increasing 6) exPart_isPartition 0 _ (by omega)
  intro ig hig
  rw [sum_ite_eq' (range 6) ig]
  simp [hig]; norm_num

/-! ## C07 -/

/-- C07: coarse velocities lie between the bounds of the fine ones. -/
theorem C07_between {C G : ℕ} (v : ℕ → K) {e : ℕ → ℕ} (he : IsPartition C G e) {c : ℕ} (hc : c < C)
    (lo hi : K) (hlo : ∀ g, InBlock e c g → lo ≤ v g) (hhi : ∀ g, InBlock e c g → v g ≤ hi) :
    lo ≤ coarsenVelocity v e c ∧ coarsenVelocity v e c ≤ hi := by
  have hn : 0 < e (c + 1) - e c := by have := he.strict c hc; omega
  have hpos : (0 : K) < ((e (c + 1) - e c : ℕ) : K) := by exact_mod_cast hn
  have hcard : ∀ x : K, ∑ _g ∈ Ico (e c) (e (c + 1)), x = x * ((e (c + 1) - e c : ℕ) : K) := by
    intro x; rw [sum_const, Nat.card_Ico, nsmul_eq_mul, mul_comm]
  unfold coarsenVelocity
  constructor
  · rw [le_div_iff₀ hpos, ← hcard]
    exact sum_le_sum fun g hg => hlo g ⟨(mem_Ico.mp hg).1, (mem_Ico.mp hg).2⟩
  · rw [div_le_iff₀ hpos, ← hcard]
    exact sum_le_sum fun g hg => hhi g ⟨(mem_Ico.mp hg).1, (mem_Ico.mp hg).2⟩

/-- C07: positive velocities stay positive. -/
theorem C07_pos {C G : ℕ} (v : ℕ → K) {e : ℕ → ℕ} (he : IsPartition C G e) {c : ℕ} (hc : c < C)
    (hv : ∀ g < G, 0 < v g) : 0 < coarsenVelocity v e c := by
  have hn : 0 < e (c + 1) - e c := by have := he.strict c hc; omega
  unfold coarsenVelocity
  refine div_pos (sum_pos (fun g hg => hv g (block_lt he hc (mem_Ico.mp hg).2)) ?_)
    (by exact_mod_cast hn)
  exact nonempty_Ico.mpr (he.strict c hc)

/-- C07: the identity partition changes nothing. -/
theorem C07_identity (v : ℕ → K) (g : ℕ) : coarsenVelocity v (fun k => k) g = v g := by
  simp [coarsenVelocity, Nat.Ico_succ_singleton]

example : 0 < coarsenVelocity (fun g => (g : ℚ) + 1) exPart 2 :=
  C07_pos _ exPart_isPartition (by omega) (fun g _ => by positivity)

end C03

end Discrete1.Props
