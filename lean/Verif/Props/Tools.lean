import Verif.Lemmas.Basic
import Verif.Lemmas.Hybrid
import Verif.Model.Tools
import Verif.Model.Hybrid
import Verif.Spec.Partition
import Mathlib.Algebra.BigOperators.Field
import Mathlib.Algebra.Order.BigOperators.Ring.Finset
import Mathlib.Data.Nat.Choose.Basic
import Mathlib.Tactic.LinearCombination
import Mathlib.Tactic.Positivity
import Mathlib.Tactic.IntervalCases

/-! # Fission, k-effective, hybrid source and Legendre helpers (C24 - C26, C38, C39, C69, C73) -/

set_option linter.unusedSectionVars false
set_option linter.unusedSimpArgs false

namespace Discrete1.Props

open Discrete1 Discrete1.Tools Discrete1.Spec Discrete1.Hybrid Finset

variable {K : Type*} [Field K] [LinearOrder K] [IsStrictOrderedRing K]

/-! ## C24 -/

/-- The fission matrix of a spectrum `chi` and a production vector `nusigf`. -/
def outer (chi nusigf : ℕ → ℕ → K) : ℕ → ℕ → ℕ → K := fun m og ig => chi m og * nusigf m ig

/-- Moment `l` of a scattering description, isotropic data having only the zeroth. -/
def moment (s : Scatter K) (m og ig l : ℕ) : K :=
  match s with
  | .iso xs => if l = 0 then xs m og ig else 0
  | .aniso _ xs => xs m og ig l

/-- C24: giving `chi` and `nusigf` is the same as giving the matrix `chi nusigf^T`. -/
theorem C24_vector_is_outer_matrix (s : Scatter K) (chi nusigf : ℕ → ℕ → K) :
    transferMatrix s (.vector chi nusigf) = transferMatrix s (.matrix (outer chi nusigf)) := by
  cases s <;> rfl

/-- C24: the transfer matrix is scattering plus fission in the zeroth moment and scattering alone in
every other moment. -/
theorem C24_zeroth_moment_only (s : Scatter K) (f : ℕ → ℕ → ℕ → K) (m og ig l : ℕ) :
    moment (transferMatrix s (.matrix f)) m og ig l
      = moment s m og ig l + if l = 0 then f m og ig else 0 := by
  cases s with
  | iso xs => by_cases h : l = 0 <;> simp [transferMatrix, moment, h]
  | aniso L xs =>
    by_cases h : l = 0
    · subst h; simp [transferMatrix, moment]
    · simp [transferMatrix, moment, h]

/-! ## C25 -/

theorem matSum_eq (G : ℕ) (xs : ℕ → ℕ → K) :
    matSum G xs = ∑ og ∈ range G, ∑ ig ∈ range G, xs og ig := by
  unfold matSum
  rw [accum_eq_sum]
  exact sum_congr rfl fun _ _ => accum_eq_sum _ _

/-- C25: for non-negative fission cross sections the source is `sum_ig flux xs / keff` in every cell and
group, also in the cells the material shortcut skips. -/
theorem C25_matrix_source (G : ℕ) (flux : ℕ → ℕ → K) (xs : ℕ → ℕ → ℕ → K) (mm : ℕ → ℕ) (keff : K)
    (ii og : ℕ) (hog : og < G) (hpos : ∀ o < G, ∀ i < G, 0 ≤ xs (mm ii) o i) :
    fissionMatProd G flux xs mm keff ii og
      = (∑ ig ∈ range G, xs (mm ii) og ig * flux ii ig) / keff := by
  unfold fissionMatProd
  rw [matSum_eq, accum_eq_sum]
  split_ifs with h
  · have h1 := (sum_eq_zero_iff_of_nonneg fun o ho => sum_nonneg fun i hi =>
      hpos o (mem_range.mp ho) i (mem_range.mp hi)).mp h og (mem_range.mpr hog)
    have h2 := (sum_eq_zero_iff_of_nonneg fun i hi =>
      hpos og hog i (mem_range.mp hi)).mp h1
    rw [sum_eq_zero fun i hi => by rw [h2 i hi, zero_mul], zero_div]
  · congr 1
    exact sum_congr rfl fun _ _ => mul_comm _ _

/-- C25: for a non-negative spectrum the vector form is `chi * production / keff`. -/
theorem C25_vector_source (G : ℕ) (flux chi nusigf : ℕ → ℕ → K) (mm : ℕ → ℕ) (keff : K)
    (ii og : ℕ) (hog : og < G) (hpos : ∀ o < G, 0 ≤ chi (mm ii) o) :
    fissionVecProd G flux chi nusigf mm keff ii og
      = chi (mm ii) og * (∑ ig ∈ range G, nusigf (mm ii) ig * flux ii ig) / keff := by
  unfold fissionVecProd
  rw [accum_eq_sum, accum_eq_sum]
  split_ifs with h
  · have h1 := (sum_eq_zero_iff_of_nonneg fun o ho => hpos o (mem_range.mp ho)).mp h og
      (mem_range.mpr hog)
    rw [h1, zero_mul, zero_div]
  · congr 1
    rw [mul_sum]
    exact sum_congr rfl fun _ _ => by ring

/-- C25: both forms agree when the matrix is `chi nusigf^T`. -/
theorem C25_forms_agree (G : ℕ) (flux chi nusigf : ℕ → ℕ → K) (mm : ℕ → ℕ) (keff : K)
    (ii og : ℕ) (hog : og < G) (hchi : ∀ o < G, 0 ≤ chi (mm ii) o)
    (hnu : ∀ o < G, 0 ≤ nusigf (mm ii) o) :
    fissionMatProd G flux (outer chi nusigf) mm keff ii og
      = fissionVecProd G flux chi nusigf mm keff ii og := by
  rw [C25_matrix_source G flux (outer chi nusigf) mm keff ii og hog
      (fun o ho i hi => mul_nonneg (hchi o ho) (hnu i hi)),
    C25_vector_source G flux chi nusigf mm keff ii og hog hchi, mul_sum]
  congr 1
  exact sum_congr rfl fun _ _ => by simp [outer]; ring

/-- C25: the hypothesis on the sign is needed; with a spectrum whose entries cancel the shortcut drops
a non-zero source. -/
theorem C25_sign_needed : fissionVecProd (K := ℚ) 2 (fun _ _ => 1) (fun _ g => if g = 0 then 1 else -1)
    (fun _ _ => 1) (fun _ => 0) 1 0 0 = 0 := by
  simp [fissionVecProd, accum]

example : fissionMatProd (K := ℚ) 2 (fun _ _ => 1) (outer (fun _ g => if g = 0 then 1 else 0)
    (fun _ _ => 3)) (fun _ => 0) 2 0 0 = 3 := by
  rw [C25_matrix_source _ _ _ _ _ _ _ (by norm_num)
    (by intro o _ i _; simp only [outer]; split_ifs <;> norm_num)]
  norm_num [outer, sum_range_succ]

/-- C25: the collapsed fission source (`_hybrid_fission_source`): every coarse group receives the production of
exactly the fine groups assigned to it, divided by `keff`. -/
theorem C25_collapsed_source (cells G : ℕ) (flux : ℕ → ℕ → K) (xs : ℕ → ℕ → ℕ → K) (mm : ℕ → ℕ) (keff : K)
    (coarse : ℕ → ℕ) (ii c : ℕ) (hi : ii < cells) (hpos : ∀ o < G, ∀ i < G, 0 ≤ xs (mm ii) o i) :
    hybridFissionSource cells G flux xs mm keff coarse ii c
      = (∑ og ∈ range G, if coarse og = c then ∑ ig ∈ range G, xs (mm ii) og ig * flux ii ig else 0) / keff := by
  have inner : ∀ (i : ℕ) (s : ℕ → ℕ → K) (n : ℕ), (∀ j, j ≠ i → loop n (fun og s =>
        Function.update s i (addAt (s i) (coarse og) (accum G (fun ig => flux i ig * xs (mm i) og ig)))) s j = s j) ∧
      loop n (fun og s => Function.update s i (addAt (s i) (coarse og)
        (accum G (fun ig => flux i ig * xs (mm i) og ig)))) s i c
        = s i c + ∑ og ∈ range n, if coarse og = c then ∑ ig ∈ range G, xs (mm i) og ig * flux i ig else 0 := by
    intro i s n
    induction n with
    | zero => exact ⟨fun _ _ => rfl, by simp [loop]⟩
    | succ n ih =>
      refine ⟨fun j hj => ?_, ?_⟩
      · rw [loop_succ, Function.update_of_ne hj, ih.1 j hj]
      · rw [loop_succ, Function.update_self, addAt_apply, sum_range_succ, ih.2, accum_eq_sum]
        have e : ∑ ig ∈ range G, flux i ig * xs (mm i) n ig = ∑ ig ∈ range G, xs (mm i) n ig * flux i ig :=
          sum_congr rfl fun _ _ => mul_comm _ _
        rw [e]
        by_cases h : c = coarse n
        · rw [if_pos h, if_pos h.symm, add_assoc]
        · rw [if_neg h, if_neg (fun h' => h h'.symm), add_zero]
  unfold hybridFissionSource
  congr 1
  have outer : ∀ n ≤ cells, (n ≤ ii → loop n (fun ii s => if matSum G (xs (mm ii)) = 0 then s
        else loop G (fun og s => Function.update s ii (addAt (s ii) (coarse og)
          (accum G (fun ig => flux ii ig * xs (mm ii) og ig)))) s) (fun _ _ => (0 : K)) ii c = 0) ∧
      (ii < n → loop n (fun ii s => if matSum G (xs (mm ii)) = 0 then s
        else loop G (fun og s => Function.update s ii (addAt (s ii) (coarse og)
          (accum G (fun ig => flux ii ig * xs (mm ii) og ig)))) s) (fun _ _ => (0 : K)) ii c
        = ∑ og ∈ range G, if coarse og = c then ∑ ig ∈ range G, xs (mm ii) og ig * flux ii ig else 0) := by
    intro n
    induction n with
    | zero => exact fun _ => ⟨fun _ => rfl, fun h => absurd h (Nat.not_lt_zero _)⟩
    | succ n ih =>
      intro hn
      obtain ⟨ih1, ih2⟩ := ih (by omega)
      refine ⟨fun h => ?_, fun h => ?_⟩
      · rw [loop_succ]
        split_ifs
        · exact ih1 (by omega)
        · rw [(inner n _ G).1 ii (by omega)]; exact ih1 (by omega)
      · rw [loop_succ]
        rcases Nat.lt_or_ge ii n with h1 | h1
        · split_ifs
          · exact ih2 h1
          · rw [(inner n _ G).1 ii (by omega)]; exact ih2 h1
        · obtain rfl : n = ii := by omega
          split_ifs with hz
          · rw [ih1 le_rfl]
            rw [matSum_eq] at hz
            symm
            refine sum_eq_zero fun og hog => ?_
            split_ifs
            · have r := (sum_eq_zero_iff_of_nonneg fun o ho => sum_nonneg fun i hi =>
                hpos o (mem_range.mp ho) i (mem_range.mp hi)).mp hz og hog
              have r2 := (sum_eq_zero_iff_of_nonneg fun i hi =>
                hpos og (mem_range.mp hog) i (mem_range.mp hi)).mp r
              exact sum_eq_zero fun i hi => by rw [r2 i hi, zero_mul]
            · rfl
          · rw [(inner n _ G).2, ih1 le_rfl, zero_add]
  exact (outer cells le_rfl).2 hi

example : hybridFissionSource (K := ℚ) 3 4 (fun _ _ => 1) (fun m o i => (m + o + i : ℕ)) (fun i => i) 2
    (fun g => g / 2) 1 0 = 12 := by
  rw [C25_collapsed_source _ _ _ _ _ _ _ _ _ (by omega) (fun o _ i _ => by positivity)]
  norm_num [sum_range_succ]

/-! ## C26 -/

/-- Fission production of a flux in the whole problem. -/
def production (cells G : ℕ) (flux : ℕ → ℕ → K) (xs : ℕ → ℕ → ℕ → K) (mm : ℕ → ℕ) : K :=
  ∑ ii ∈ range cells, ∑ og ∈ range G, ∑ ig ∈ range G, xs (mm ii) og ig * flux ii ig

theorem rateMat_eq (cells G : ℕ) (flux : ℕ → ℕ → K) (xs : ℕ → ℕ → ℕ → K) (mm : ℕ → ℕ)
    (hpos : ∀ m, ∀ o < G, ∀ i < G, 0 ≤ xs m o i) :
    rateMat cells G flux xs mm = production cells G flux xs mm := by
  unfold rateMat production
  induction cells with
  | zero => simp
  | succ n ih =>
    rw [loop_succ, ih, sum_range_succ]
    split_ifs with h
    · rw [matSum_eq] at h
      have : ∑ og ∈ range G, ∑ ig ∈ range G, xs (mm n) og ig * flux n ig = 0 := by
        refine sum_eq_zero fun o ho => sum_eq_zero fun i hi => ?_
        have h1 := (sum_eq_zero_iff_of_nonneg fun o ho => sum_nonneg fun i hi =>
          hpos _ o (mem_range.mp ho) i (mem_range.mp hi)).mp h o ho
        have h2 := (sum_eq_zero_iff_of_nonneg fun i hi =>
          hpos _ o (mem_range.mp ho) i (mem_range.mp hi)).mp h1 i hi
        rw [h2, zero_mul]
      rw [this, add_zero]
    · rw [loop_congr G _ (fun og rate => rate + ∑ ig ∈ range G, xs (mm n) og ig * flux n ig),
        loop_add_eq_sum]
      intro og _ s
      rw [loop_add_eq_sum]
      congr 1
      exact sum_congr rfl fun _ _ => mul_comm _ _

theorem rateVec_eq (cells G : ℕ) (flux chi nusigf : ℕ → ℕ → K) (mm : ℕ → ℕ)
    (hpos : ∀ m, ∀ o < G, 0 ≤ chi m o) :
    rateVec cells G flux chi nusigf mm = production cells G flux (outer chi nusigf) mm := by
  unfold rateVec production
  induction cells with
  | zero => simp
  | succ n ih =>
    rw [loop_succ, ih, sum_range_succ]
    split_ifs with h
    · rw [accum_eq_sum] at h
      have : ∑ og ∈ range G, ∑ ig ∈ range G, outer chi nusigf (mm n) og ig * flux n ig = 0 := by
        refine sum_eq_zero fun o ho => sum_eq_zero fun i hi => ?_
        have h1 := (sum_eq_zero_iff_of_nonneg fun o ho => hpos _ o (mem_range.mp ho)).mp h o ho
        simp [outer, h1]
      rw [this, add_zero]
    · rw [loop_congr G _
        (fun og rate => rate + ∑ ig ∈ range G, outer chi nusigf (mm n) og ig * flux n ig),
        loop_add_eq_sum]
      intro og _ s
      rw [loop_add_eq_sum]
      congr 1
      exact sum_congr rfl fun _ _ => by simp [outer]; ring

/-- C26: the matrix update is `keff * production(new) / production(old)`. -/
theorem C26_matrix_update (cells G : ℕ) (flux old : ℕ → ℕ → K) (xs : ℕ → ℕ → ℕ → K) (mm : ℕ → ℕ)
    (keff : K) (hpos : ∀ m, ∀ o < G, ∀ i < G, 0 ≤ xs m o i)
    (hold : production cells G old xs mm ≠ 0) :
    updateKeffMat cells G flux old xs mm keff * production cells G old xs mm
      = keff * production cells G flux xs mm := by
  unfold updateKeffMat
  rw [rateMat_eq _ _ _ _ _ hpos, rateMat_eq _ _ _ _ _ hpos]
  field_simp

/-- C26: the vector update is the same with the production of `chi nusigf^T`. -/
theorem C26_vector_update (cells G : ℕ) (flux old chi nusigf : ℕ → ℕ → K) (mm : ℕ → ℕ)
    (keff : K) (hpos : ∀ m, ∀ o < G, 0 ≤ chi m o)
    (hold : production cells G old (outer chi nusigf) mm ≠ 0) :
    updateKeffVec cells G flux old chi nusigf mm keff * production cells G old (outer chi nusigf) mm
      = keff * production cells G flux (outer chi nusigf) mm := by
  unfold updateKeffVec
  rw [rateVec_eq _ _ _ _ _ _ hpos, rateVec_eq _ _ _ _ _ _ hpos]
  field_simp

/-- C26: matrix and vector updates agree. -/
theorem C26_updates_agree (cells G : ℕ) (flux old chi nusigf : ℕ → ℕ → K) (mm : ℕ → ℕ)
    (keff : K) (hchi : ∀ m, ∀ o < G, 0 ≤ chi m o) (hnu : ∀ m, ∀ o < G, 0 ≤ nusigf m o) :
    updateKeffMat cells G flux old (outer chi nusigf) mm keff
      = updateKeffVec cells G flux old chi nusigf mm keff := by
  have h : ∀ m, ∀ o < G, ∀ i < G, 0 ≤ outer chi nusigf m o i := fun m o ho i hi =>
    mul_nonneg (hchi m o ho) (hnu m i hi)
  unfold updateKeffMat updateKeffVec
  rw [rateMat_eq _ _ _ _ _ h, rateMat_eq _ _ _ _ _ h, rateVec_eq _ _ _ _ _ _ hchi,
    rateVec_eq _ _ _ _ _ _ hchi]

theorem production_smul (cells G : ℕ) (flux : ℕ → ℕ → K) (xs : ℕ → ℕ → ℕ → K) (mm : ℕ → ℕ) (c : K) :
    production cells G (fun i g => c * flux i g) xs mm = c * production cells G flux xs mm := by
  unfold production
  simp only [mul_sum]
  exact sum_congr rfl fun _ _ => sum_congr rfl fun _ _ => sum_congr rfl fun _ _ => by ring

/-- C26: scaling both fluxes by the same non-zero factor does not change the update. -/
theorem C26_scale_invariant (cells G : ℕ) (flux old : ℕ → ℕ → K) (xs : ℕ → ℕ → ℕ → K) (mm : ℕ → ℕ)
    (keff c : K) (hc : c ≠ 0) (hpos : ∀ m, ∀ o < G, ∀ i < G, 0 ≤ xs m o i) :
    updateKeffMat cells G (fun i g => c * flux i g) (fun i g => c * old i g) xs mm keff
      = updateKeffMat cells G flux old xs mm keff := by
  unfold updateKeffMat
  rw [rateMat_eq _ _ _ _ _ hpos, rateMat_eq _ _ _ _ _ hpos, rateMat_eq _ _ _ _ _ hpos,
    rateMat_eq _ _ _ _ _ hpos, production_smul, production_smul, mul_assoc, mul_div_mul_left _ _ hc]

-- two cells, two groups, a non-zero old production
example : production (K := ℚ) 2 2 (fun _ _ => 1) (fun _ _ _ => 1) (fun _ => 0) ≠ 0 := by
  norm_num [production]

/-! ## C38 -/

/-- C38: the collided source of coarse group `c` is the scattering rate of the uncollided flux summed
over the fine groups that are mapped to `c`. -/
theorem C38_group (G : ℕ) (fluxU : ℕ → ℕ → K) (xs : ℕ → ℕ → ℕ → K) (mm coarse : ℕ → ℕ) (ii c : ℕ) :
    hybridSourceCollided G fluxU xs mm coarse ii c
      = ∑ og ∈ (range G).filter (fun og => coarse og = c),
          ∑ ig ∈ range G, xs (mm ii) og ig * fluxU ii ig := by
  unfold hybridSourceCollided
  have inner : ∀ (og n : ℕ) (row : ℕ → K),
      loop n (fun ig row => addAt row (coarse og) (fluxU ii ig * xs (mm ii) og ig)) row c
        = row c + if coarse og = c then ∑ ig ∈ range n, xs (mm ii) og ig * fluxU ii ig else 0 := by
    intro og n row
    induction n with
    | zero => simp
    | succ n ih =>
      rw [loop_succ, addAt_apply, ih, sum_range_succ]
      by_cases h : coarse og = c
      · simp [h]; ring
      · simp [h, Ne.symm h]
  have outerl : ∀ n : ℕ, loop n (fun og row => loop G (fun ig row =>
      addAt row (coarse og) (fluxU ii ig * xs (mm ii) og ig)) row) (fun _ => (0 : K)) c
        = ∑ og ∈ (range n).filter (fun og => coarse og = c),
          ∑ ig ∈ range G, xs (mm ii) og ig * fluxU ii ig := by
    intro n
    induction n with
    | zero => simp
    | succ n ih =>
      rw [loop_succ, inner, ih, range_add_one, filter_insert]
      split_ifs with h
      · rw [sum_insert (by simp), add_comm]
      · simp
  exact outerl G

/-- C38: with the index map of a partition the sum runs over exactly the fine groups of `c`. -/
theorem C38_block {C G : ℕ} {e : ℕ → ℕ} (h : IsPartition C G e) (fluxU : ℕ → ℕ → K)
    (xs : ℕ → ℕ → ℕ → K) (mm : ℕ → ℕ) (ii c : ℕ) (hc : c < C) :
    hybridSourceCollided G fluxU xs mm (Hybrid.collidedIndex C e) ii c
      = ∑ og ∈ Ico (e c) (e (c + 1)), ∑ ig ∈ range G, xs (mm ii) og ig * fluxU ii ig := by
  rw [C38_group]
  refine sum_congr ?_ fun _ _ => rfl
  ext og
  simp only [mem_filter, mem_range, mem_Ico]
  constructor
  · rintro ⟨h1, h2⟩
    obtain ⟨c', hc', hb⟩ := exists_block (C := C) h.first (show og < e C by rw [h.last]; exact h1)
    rw [collidedIndex_of_block h hc' hb] at h2
    subst h2
    exact hb
  · intro hb
    exact ⟨block_lt h hc hb.2, collidedIndex_of_block h hc hb⟩

/-- C38: nothing is lost between the grids: summed over the coarse groups the collided source is the
total scattering (plus fission) rate of the uncollided flux. -/
theorem C38_total {C : ℕ} (G : ℕ) (fluxU : ℕ → ℕ → K)
    (xs : ℕ → ℕ → ℕ → K) (mm coarse : ℕ → ℕ) (ii : ℕ) (hc : ∀ og < G, coarse og < C) :
    ∑ c ∈ range C, hybridSourceCollided G fluxU xs mm coarse ii c
      = ∑ og ∈ range G, ∑ ig ∈ range G, xs (mm ii) og ig * fluxU ii ig := by
  simp only [C38_group]
  exact sum_fiberwise_of_maps_to (fun og h => mem_range.mpr (hc og (mem_range.mp h))) _

/-- C38 for anisotropic data: the collided source is built from the zeroth moment. -/
theorem C38_aniso (G : ℕ) (fluxU : ℕ → ℕ → K) (xs : ℕ → ℕ → ℕ → ℕ → K) (mm coarse : ℕ → ℕ)
    (ii c : ℕ) :
    hybridSourceCollidedAniso G fluxU xs mm coarse ii c
      = ∑ og ∈ (range G).filter (fun og => coarse og = c),
          ∑ ig ∈ range G, xs (mm ii) og ig 0 * fluxU ii ig :=
  C38_group G fluxU (fun m o i => xs m o i 0) mm coarse ii c

-- three fine groups, partition {0}, {1, 2}
example : IsPartition 2 3 (fun c => if c = 0 then 0 else c + 1) :=
  ⟨rfl, rfl, by intro c hc; interval_cases c <;> simp⟩

/-! ## C39 -/

theorem addCollided_apply (G : ℕ) (fluxC : ℕ → ℕ → K) (coarse : ℕ → ℕ) (factor : ℕ → K) (ii : ℕ)
    (f : ℕ → ℕ → K) (i g : ℕ) :
    addCollided G fluxC coarse factor ii f i g
      = f i g + if i = ii ∧ g < G then fluxC ii (coarse g) * factor g else 0 := by
  unfold addCollided
  induction G with
  | zero => simp
  | succ n ih =>
    rw [loop_succ, ih]
    by_cases hi : i = ii
    · by_cases hg : g = n
      · subst hg; simp [hi]
      · have : g < n + 1 ↔ g < n := by omega
        simp [hi, hg, this]
    · simp [hi]

theorem addOverGroupsAngles (G A : ℕ) (v : ℕ → ℕ → K) (ii : ℕ) (q : ℕ → ℕ → ℕ → K) (i n g : ℕ) :
    loop G (fun og q => loop A (fun nn q => fun i n g =>
        if i = ii ∧ n = nn ∧ g = og then q i n g + v nn og else q i n g) q) q i n g
      = q i n g + if i = ii ∧ n < A ∧ g < G then v n g else 0 := by
  have inner : ∀ (B og : ℕ) (q : ℕ → ℕ → ℕ → K), loop B (fun nn q => fun i n g =>
        if i = ii ∧ n = nn ∧ g = og then q i n g + v nn og else q i n g) q i n g
      = q i n g + if i = ii ∧ n < B ∧ g = og then v n g else 0 := by
    intro B og q
    induction B with
    | zero => simp
    | succ B ih =>
      rw [loop_succ, ih]
      by_cases h1 : i = ii ∧ n = B ∧ g = og
      · obtain ⟨a, b, c⟩ := h1
        subst a b c; simp
      · by_cases h2 : i = ii ∧ g = og
        · have hn : n ≠ B := fun h => h1 ⟨h2.1, h, h2.2⟩
          have : n < B + 1 ↔ n < B := by omega
          simp [h2.1, h2.2, hn, this]
        · have e1 : ¬ (i = ii ∧ n < B ∧ g = og) := fun h => h2 ⟨h.1, h.2.2⟩
          have e2 : ¬ (i = ii ∧ n < B + 1 ∧ g = og) := fun h => h2 ⟨h.1, h.2.2⟩
          rw [if_neg h1, if_neg e1, if_neg e2]
  induction G with
  | zero => simp
  | succ G ih =>
    rw [loop_succ, inner, ih]
    by_cases hg : g = G
    · subst hg; simp
    · have : g < G + 1 ↔ g < G := by omega
      simp [hg, this]

theorem hybridSourceTotal_apply (N A G : ℕ) (fluxU fluxC : ℕ → ℕ → K) (xs : ℕ → ℕ → ℕ → K)
    (q : ℕ → ℕ → ℕ → K) (mm coarse : ℕ → ℕ) (factor : ℕ → K) :
    hybridSourceTotal N A G fluxU fluxC xs q mm coarse factor
      = (fun i g => fluxU i g + if i < N ∧ g < G then fluxC i (coarse g) * factor g else 0,
        fun i n g => q i n g + if i < N ∧ n < A ∧ g < G then
          ∑ ig ∈ range G, xs (mm i) g ig * (fluxU i ig + fluxC i (coarse ig) * factor ig) else 0) := by
  unfold hybridSourceTotal
  induction N with
  | zero => simp
  | succ N ih =>
    rw [loop_succ, ih]
    refine Prod.ext ?_ ?_
    · funext i g
      simp only [addCollided_apply]
      by_cases hi : i = N
      · subst hi; simp
      · have : i < N + 1 ↔ i < N := by omega
        simp [hi, this]
    · funext i n g
      simp only
      rw [addOverGroupsAngles G A (fun _ og => accum G fun ig =>
        addCollided G fluxC coarse factor N
          (fun i g => fluxU i g + if i < N ∧ g < G then fluxC i (coarse g) * factor g else 0) N ig
            * xs (mm N) og ig) N]
      by_cases hi : i = N
      · subst hi
        simp only [lt_irrefl, false_and, if_false, add_zero, true_and, lt_add_iff_pos_right,
          Nat.lt_one_iff, pos_of_gt]
        split_ifs with h
        · rw [accum_eq_sum]
          congr 1
          refine sum_congr rfl fun ig hig => ?_
          rw [addCollided_apply]
          simp [mem_range.mp hig, mul_comm]
        · rfl
      · have : i < N + 1 ↔ i < N := by omega
        simp [hi, this]

/-- C39: after `_hybrid_source_total` the fine flux is uncollided plus `factor` times collided, and `q*`
has grown, in every angle alike, by the scattering matrix applied to exactly that updated flux. -/
theorem C39_hybrid_total (N A G : ℕ) (fluxU fluxC : ℕ → ℕ → K) (xs : ℕ → ℕ → ℕ → K)
    (q : ℕ → ℕ → ℕ → K) (mm coarse : ℕ → ℕ) (factor : ℕ → K) (i : ℕ) (hi : i < N) :
    (∀ g < G, (hybridSourceTotal N A G fluxU fluxC xs q mm coarse factor).1 i g
      = fluxU i g + fluxC i (coarse g) * factor g) ∧
    (∀ n < A, ∀ g < G, (hybridSourceTotal N A G fluxU fluxC xs q mm coarse factor).2 i n g - q i n g
      = ∑ ig ∈ range G, xs (mm i) g ig *
          (hybridSourceTotal N A G fluxU fluxC xs q mm coarse factor).1 i ig) := by
  rw [hybridSourceTotal_apply]
  refine ⟨fun g hg => by simp [hi, hg], fun n hn g hg => ?_⟩
  simp only [hi, hn, hg, true_and, and_self, if_true, add_sub_cancel_left]
  exact sum_congr rfl fun ig hig => by simp [mem_range.mp hig]

/-- C39 for anisotropic data whose Legendre table starts with `P_0 = 1`: the same update with the
zeroth-moment matrix, whatever the higher moments are. -/
theorem C39_hybrid_total_aniso (N A G L : ℕ) (fluxU fluxC : ℕ → ℕ → K) (xs : ℕ → ℕ → ℕ → ℕ → K)
    (q : ℕ → ℕ → ℕ → K) (mm coarse : ℕ → ℕ) (factor : ℕ → K) (P : ℕ → ℕ → K) (hL : 0 < L)
    (hP : ∀ n, P 0 n = 1) :
    hybridSourceTotalAniso N A G L fluxU fluxC xs q mm coarse factor P
      = hybridSourceTotal N A G fluxU fluxC (fun m o i => xs m o i 0) q mm coarse factor := by
  have key : ∀ (M : ℕ) (v : ℕ → K) (n : ℕ), 0 < M → loop M (fun ll scatter =>
      if ll = 0 then scatter + (2 * (ll : K) + 1) * v ll * P ll n else scatter) 0 = v 0 := by
    intro M v n hM
    induction M with
    | zero => omega
    | succ M ih =>
      rw [loop_succ]
      by_cases h : M = 0
      · subst h; simp [hP]
      · rw [ih (by omega)]; simp [h]
  unfold hybridSourceTotalAniso hybridSourceTotal
  refine loop_congr _ _ _ _ fun ii _ s => ?_
  simp only
  congr 1
  refine loop_congr _ _ _ _ fun og _ q => loop_congr _ _ _ _ fun nn _ q => ?_
  have := key L (fun ll => accum G fun ig => addCollided G fluxC coarse factor ii s.1 ii ig
    * xs (mm ii) og ig ll) nn hL
  rw [this]

/-! ## C73 -/

/-- C73: reaction rates are the material-wise matrix product, and `_source_total` and
`_time_right_side` add exactly that product, the same for every angle. -/
theorem C73_matrix_product (G : ℕ) (flux : ℕ → ℕ → K) (xs : ℕ → ℕ → ℕ → K) (mm : ℕ → ℕ)
    (external : Arr3 K) (q : ℕ → ℕ → ℕ → K) (i n g : ℕ) :
    reactionRates G flux xs mm i g = ∑ ig ∈ range G, xs (mm i) g ig * flux i ig ∧
    sourceTotal G flux xs mm external i n g = reactionRates G flux xs mm i g
      + external.val i (if external.angles = 1 then 0 else n) (if external.groups = 1 then 0 else g) ∧
    timeRightSide G q flux xs mm i n g = q i n g + reactionRates G flux xs mm i g := by
  refine ⟨sum_congr rfl fun _ _ => mul_comm _ _, ?_, ?_⟩
  · unfold sourceTotal reactionRates bidx
    rw [accum_eq_sum]
  · unfold timeRightSide reactionRates
    rw [accum_eq_sum]

/-- C73: the anisotropic variants with `P_0 = 1` add the product with the zeroth-moment matrix. -/
theorem C73_aniso (G L : ℕ) (flux : ℕ → ℕ → K) (xs : ℕ → ℕ → ℕ → ℕ → K) (mm : ℕ → ℕ)
    (external : Arr3 K) (q : ℕ → ℕ → ℕ → K) (P : ℕ → ℕ → K) (hL : 0 < L) (hP : ∀ n, P 0 n = 1) :
    sourceTotalAniso G L flux xs mm external P = sourceTotal G flux (fun m o i => xs m o i 0) mm external ∧
    timeRightSideAniso G L q flux xs mm P = timeRightSide G q flux (fun m o i => xs m o i 0) mm := by
  obtain ⟨M, rfl⟩ : ∃ M, L = M + 1 := ⟨L - 1, by omega⟩
  constructor
  · funext i n g
    unfold sourceTotalAniso sourceTotal
    congr 1
    rw [accum_eq_sum, sum_range_succ', sum_eq_zero]
    · simp only [if_true, hP, mul_one, Nat.cast_zero, mul_zero, zero_add, one_mul]
      exact congrArg (accum G) (funext fun ig => mul_comm _ _)
    · intro l _
      simp [accum_eq_sum]
  · funext i n g
    unfold timeRightSideAniso timeRightSide
    congr 1
    induction M with
    | zero => simp [hP]
    | succ M ih => rw [loop_succ, ih (by omega)]; simp

/-! ## C69: Legendre polynomials -/

theorem legendre_succ_succ (mu : K) (l : ℕ) : legendre mu (l + 2)
    = ((2 * ((l : K) + 2) - 1) * mu * legendre mu (l + 1) - (((l : K) + 2) - 1) * legendre mu l)
      / ((l : K) + 2) := rfl

/-- C69: Bonnet's recurrence. -/
theorem C69_bonnet (mu : K) (l : ℕ) :
    ((l : K) + 2) * legendre mu (l + 2)
      = (2 * (l : K) + 3) * mu * legendre mu (l + 1) - ((l : K) + 1) * legendre mu l := by
  rw [legendre_succ_succ]
  have : (l : K) + 2 ≠ 0 := by positivity
  field_simp
  ring

/-- Coefficients of the Legendre polynomial in powers of `(mu - 1)/2`. -/
def legCoef (n k : ℕ) : ℕ := n.choose k * (n + k).choose k

theorem legCoef_zero_of_lt {n k : ℕ} (h : n < k) : legCoef n k = 0 := by
  simp [legCoef, Nat.choose_eq_zero_of_lt h]

theorem legCoef_diag (m j : ℕ) : legCoef (m + 1) (j + 1) * (j + 1) ^ 2
    = (m + j + 1) * (m + j + 2) * legCoef m j := by
  unfold legCoef
  have h1 := Nat.add_one_mul_choose_eq m j
  have h2 := Nat.add_one_mul_choose_eq (m + j + 1) j
  have h3 := Nat.choose_mul_succ_eq (m + j) j
  rw [show m + j + 1 - j = m + 1 by omega] at h3
  rw [show m + 1 + (j + 1) = m + j + 1 + 1 by ring]
  calc (m + 1).choose (j + 1) * (m + j + 1 + 1).choose (j + 1) * (j + 1) ^ 2
      = ((m + 1).choose (j + 1) * (j + 1)) * ((m + j + 1 + 1).choose (j + 1) * (j + 1)) := by ring
    _ = ((m + 1) * m.choose j) * ((m + j + 1 + 1) * (m + j + 1).choose j) := by rw [← h1, ← h2]
    _ = m.choose j * (m + j + 2) * ((m + j + 1).choose j * (m + 1)) := by ring
    _ = m.choose j * (m + j + 2) * ((m + j).choose j * (m + j + 1)) := by rw [← h3]
    _ = _ := by ring

theorem legCoef_right (m j : ℕ) : (legCoef m (j + 1) : K) * ((j : K) + 1) ^ 2
    = legCoef m j * ((m : K) - j) * ((m : K) + j + 1) := by
  rcases Nat.lt_or_ge m j with h | h
  · rw [legCoef_zero_of_lt h, legCoef_zero_of_lt (show m < j + 1 by omega)]; simp
  · have h1 := Nat.choose_succ_right_eq m j
    have h2 := Nat.add_one_mul_choose_eq (m + j) j
    have h1' : (m.choose (j + 1) : K) * ((j : K) + 1) = m.choose j * ((m : K) - j) := by
      rw [← Nat.cast_sub h]; exact_mod_cast h1
    have h2' : ((m : K) + j + 1) * (m + j).choose j = (m + j + 1).choose (j + 1) * ((j : K) + 1) := by
      exact_mod_cast h2
    unfold legCoef
    rw [show m + (j + 1) = m + j + 1 by ring]
    push_cast
    linear_combination ((m + j + 1).choose (j + 1) : K) * ((j : K) + 1) * h1'
      - (m.choose j : K) * ((m : K) - j) * h2'

theorem legCoef_left (n j : ℕ) : (legCoef (n + 1) j : K) * ((n : K) + 1 - j)
    = ((n : K) + 1 + j) * legCoef n j := by
  rcases Nat.lt_or_ge (n + 1) j with h | h
  · rw [legCoef_zero_of_lt h, legCoef_zero_of_lt (show n < j by omega)]; simp
  · have h1 := Nat.choose_mul_succ_eq n j
    have h2 := Nat.choose_mul_succ_eq (n + j) j
    rw [show n + j + 1 - j = n + 1 by omega] at h2
    have h1' : (n.choose j : K) * ((n : K) + 1) = (n + 1).choose j * ((n : K) + 1 - j) := by
      rw [show (n : K) + 1 - j = ((n + 1 - j : ℕ) : K) by rw [Nat.cast_sub h]; push_cast; ring]
      exact_mod_cast h1
    have h2' : ((n + j).choose j : K) * ((n : K) + j + 1) = (n + j + 1).choose j * ((n : K) + 1) := by
      exact_mod_cast h2
    have hn : (n : K) + 1 ≠ 0 := by positivity
    unfold legCoef
    rw [show n + 1 + j = n + j + 1 by ring]
    push_cast
    refine mul_right_cancel₀ hn ?_
    linear_combination (-((n + j + 1).choose j : K) * ((n : K) + 1)) * h1'
      - (n.choose j : K) * ((n : K) + 1) * h2'

theorem legCoef_bonnet (n j : ℕ) : ((n : K) + 2) * legCoef (n + 2) (j + 1)
    = (2 * (n : K) + 3) * (legCoef (n + 1) (j + 1) + 2 * legCoef (n + 1) j)
      - ((n : K) + 1) * legCoef n (j + 1) := by
  have hj : ((j : K) + 1) ^ 2 ≠ 0 := by positivity
  have h1 : (legCoef (n + 2) (j + 1) : K) * ((j : K) + 1) ^ 2
      = ((n : K) + 1 + j + 1) * ((n : K) + 1 + j + 2) * legCoef (n + 1) j := by
    exact_mod_cast legCoef_diag (n + 1) j
  have h2 := legCoef_right (K := K) (n + 1) j
  have h3 := legCoef_right (K := K) n j
  have h4 := legCoef_left (K := K) n j
  push_cast at h2
  refine mul_right_cancel₀ hj ?_
  linear_combination ((n : K) + 2) * h1 - (2 * (n : K) + 3) * h2 + ((n : K) + 1) * h3
    - ((n : K) + 1) * ((n : K) - j) * h4

/-- C69: row `l` is the Legendre polynomial of degree `l`, given by its explicit expansion
`P_l(mu) = sum_k C(l,k) C(l+k,k) ((mu-1)/2)^k`, at every ordinate and for every `l`. -/
theorem C69_explicit (mu : K) (l : ℕ) :
    legendre mu l
      = ∑ k ∈ range (l + 1), (l.choose k : K) * ((l + k).choose k : K) * ((mu - 1) / 2) ^ k := by
  have key : ∀ l M : ℕ, l < M → (legendre mu l = ∑ k ∈ range M, (legCoef l k : K) * ((mu - 1) / 2) ^ k) ∧
      (l + 1 < M → legendre mu (l + 1)
        = ∑ k ∈ range M, (legCoef (l + 1) k : K) * ((mu - 1) / 2) ^ k) := by
    intro l
    induction l with
    | zero =>
      intro M hM
      constructor
      · obtain ⟨M, rfl⟩ : ∃ m, M = m + 1 := ⟨M - 1, by omega⟩
        rw [sum_range_succ', sum_eq_zero]
        · simp [legendre, legCoef]
        · intro k _; rw [legCoef_zero_of_lt (by omega)]; simp
      · intro hM
        obtain ⟨M, rfl⟩ : ∃ m, M = m + 2 := ⟨M - 2, by omega⟩
        rw [sum_range_succ', sum_range_succ', sum_eq_zero]
        · simp [legendre, legCoef]; ring
        · intro k _; rw [legCoef_zero_of_lt (by omega)]; simp
    | succ l ih =>
      intro M hM
      refine ⟨(ih M (by omega)).2 hM, fun hM' => ?_⟩
      have h0 := (ih M (by omega)).1
      have h1 := (ih M (by omega)).2 hM
      have hb := C69_bonnet mu l
      have hl : (l : K) + 2 ≠ 0 := by positivity
      refine mul_left_cancel₀ hl ?_
      rw [show l + 1 + 1 = l + 2 by ring, hb, h0, h1]
      obtain ⟨M, rfl⟩ : ∃ m, M = m + 1 := ⟨M - 1, by omega⟩
      have hmu : mu = 1 + 2 * ((mu - 1) / 2) := by ring
      generalize (mu - 1) / 2 = y at hmu ⊢
      subst hmu
      -- split the factor 1 + 2 y
      have hs : ∀ n : ℕ, n < M + 1 → y * ∑ k ∈ range (M + 1), (legCoef n k : K) * y ^ k
          = ∑ k ∈ range M, (legCoef n k : K) * y ^ (k + 1) + legCoef n M * y ^ (M + 1) := by
        intro n _
        rw [sum_range_succ, mul_add, mul_sum]
        congr 1
        · exact sum_congr rfl fun k _ => by ring
        · ring
      have htop : legCoef (l + 1) M = 0 := legCoef_zero_of_lt (by omega)
      have e1 := hs (l + 1) (by omega)
      rw [htop, Nat.cast_zero, zero_mul, add_zero] at e1
      have e2 : (2 * (l : K) + 3) * (1 + 2 * y) * ∑ k ∈ range (M + 1), (legCoef (l + 1) k : K) * y ^ k
          = (2 * (l : K) + 3) * (∑ k ∈ range (M + 1), (legCoef (l + 1) k : K) * y ^ k
            + 2 * ∑ k ∈ range M, (legCoef (l + 1) k : K) * y ^ (k + 1)) := by
        rw [← e1]; ring
      rw [e2, sum_range_succ' (fun k => (legCoef (l + 1) k : K) * y ^ k),
        sum_range_succ' (fun k => (legCoef l k : K) * y ^ k),
        sum_range_succ' (fun k => (legCoef (l + 2) k : K) * y ^ k)]
      have e3 : ((l : K) + 2) * ∑ k ∈ range M, (legCoef (l + 2) (k + 1) : K) * y ^ (k + 1)
          = (2 * (l : K) + 3) * (∑ k ∈ range M, (legCoef (l + 1) (k + 1) : K) * y ^ (k + 1)
            + 2 * ∑ k ∈ range M, (legCoef (l + 1) k : K) * y ^ (k + 1))
            - ((l : K) + 1) * ∑ k ∈ range M, (legCoef l (k + 1) : K) * y ^ (k + 1) := by
        rw [mul_sum, mul_sum, mul_sum, ← sum_add_distrib, mul_sum, ← sum_sub_distrib]
        refine sum_congr rfl fun k _ => ?_
        linear_combination y ^ (k + 1) * legCoef_bonnet (K := K) l k
      have e4 : ∀ n, (legCoef n 0 : K) = 1 := by intro n; simp [legCoef]
      rw [e4, e4, e4]
      linear_combination -e3
  rw [(key l (l + 1) (by omega)).1]
  exact sum_congr rfl fun k _ => by unfold legCoef; push_cast; ring

/-- C69: normalisation, parity and closed forms. -/
theorem C69_values (mu : K) (l : ℕ) :
    legendre (1 : K) l = 1 ∧ legendre (-mu) l = (-1) ^ l * legendre mu l := by
  have key : ∀ l : ℕ, (legendre (1 : K) l = 1 ∧ legendre (-mu) l = (-1) ^ l * legendre mu l) ∧
      (legendre (1 : K) (l + 1) = 1 ∧ legendre (-mu) (l + 1) = (-1) ^ (l + 1) * legendre mu (l + 1)) := by
    intro l
    induction l with
    | zero => simp [legendre]
    | succ l ih =>
      refine ⟨ih.2, ?_, ?_⟩
      · rw [legendre_succ_succ, ih.1.1, ih.2.1, div_eq_iff (by positivity)]; ring
      · rw [legendre_succ_succ, legendre_succ_succ, ih.1.2, ih.2.2]; ring
  exact (key l).1

/-- C69: the low orders. -/
theorem C69_low_orders (mu : K) :
    legendre mu 0 = 1 ∧ legendre mu 1 = mu ∧ legendre mu 2 = (3 * mu ^ 2 - 1) / 2 ∧
      legendre mu 3 = (5 * mu ^ 3 - 3 * mu) / 2 := by
  refine ⟨rfl, rfl, ?_, ?_⟩
  · simp only [legendre]; push_cast; ring
  · simp only [legendre]; push_cast; ring

end Discrete1.Props
