import Verif.Model.MlTools
import Verif.Lemmas.Basic
import Mathlib.Algebra.Order.Chebyshev
import Mathlib.Algebra.BigOperators.Field
import Mathlib.Algebra.Order.BigOperators.Ring.Finset
import Mathlib.Data.List.Range
import Mathlib.Tactic.Linarith
import Mathlib.Tactic.NormNum
import Mathlib.Tactic.Ring
import Mathlib.Tactic.FieldSimp
import Mathlib.Tactic.Positivity

/-!
# C55-C58: training data, splitting, normalisation, metrics
-/

set_option linter.unusedSectionVars false
set_option linter.unusedSimpArgs false

namespace Discrete1.Props

open Finset Discrete1.Ml

variable {K : Type*} [Field K] [LinearOrder K] [IsStrictOrderedRing K]

/-! ## C55: combine_flux_reaction -/

/-- The rows with data, iteration by iteration and cell by cell: label, flux and the product of the cell's
material matrix with its flux. -/
def expectedRows (iterations cells groups : ℕ) (flux : ℕ → ℕ → ℕ → K) (xs : ℕ → ℕ → ℕ → K) (mm : ℕ → ℕ)
    (labels : ℕ → K) : List (Row K) :=
  (List.range iterations).flatMap fun cc => ((List.range cells).filter fun ii => decide
      (∑ g ∈ range groups, (flux cc ii g + ∑ k ∈ range groups, xs (mm ii) g k * flux cc ii k) ≠ 0)).map
    fun ii => ⟨labels ii, flux cc ii, fun h => ∑ g ∈ range groups, xs (mm ii) h g * flux cc ii g⟩

theorem dataRow_eq (groups : ℕ) (flux : ℕ → ℕ → ℕ → K) (xs : ℕ → ℕ → ℕ → K) (mm : ℕ → ℕ) (labels : ℕ → K)
    (cc ii : ℕ) : dataRow groups flux xs mm labels cc ii
      = ⟨labels ii, flux cc ii, fun h => ∑ g ∈ range groups, xs (mm ii) h g * flux cc ii g⟩ := by
  unfold dataRow
  congr 1
  funext h
  rw [accum_eq_sum]
  exact sum_congr rfl fun g _ => mul_comm _ _

theorem range_mul_flatMap (m n : ℕ) : List.range (m * n)
    = (List.range m).flatMap fun c => (List.range n).map fun i => c * n + i := by
  induction m with
  | zero => simp
  | succ m ih =>
    rw [List.range_succ, List.flatMap_append, Nat.succ_mul, List.range_add, ih]
    simp

/-- C55: the training rows are exactly those of the (iteration, cell) pairs with a nonzero flux-plus-rate
sum, each once, in order, with its own label, flux and reaction rate. -/
theorem C55_rows (iterations cells groups : ℕ) (flux : ℕ → ℕ → ℕ → K) (xs : ℕ → ℕ → ℕ → K)
    (mm : ℕ → ℕ) (labels : ℕ → K) :
    combineFluxReaction iterations cells groups flux xs mm labels
      = expectedRows iterations cells groups flux xs mm labels := by
  unfold combineFluxReaction expectedRows
  rw [range_mul_flatMap, List.filter_flatMap, List.map_flatMap]
  congr 1
  funext cc
  rw [List.filter_map, List.map_map]
  have hdm : ∀ ii ∈ List.range cells, (cc * cells + ii) / cells = cc ∧ (cc * cells + ii) % cells = ii := by
    intro ii hi
    have hi := List.mem_range.mp hi
    constructor
    · rw [mul_comm, Nat.mul_add_div (by omega), Nat.div_eq_of_lt hi, add_zero]
    · rw [mul_comm, Nat.mul_add_mod, Nat.mod_eq_of_lt hi]
  have h1 : (List.range cells).filter ((fun k => decide (rowSum groups
        (dataRow groups flux xs mm labels (k / cells) (k % cells)) ≠ 0)) ∘ fun i => cc * cells + i)
      = (List.range cells).filter fun ii => decide
        (∑ g ∈ range groups, (flux cc ii g + ∑ k ∈ range groups, xs (mm ii) g k * flux cc ii k) ≠ 0) := by
    refine List.filter_congr fun ii hi => ?_
    simp only [Function.comp, (hdm ii hi).1, (hdm ii hi).2, dataRow_eq, rowSum, accum_eq_sum]
  rw [h1]
  refine List.map_congr_left fun ii hi => ?_
  have hi := (List.mem_filter.mp hi).1
  simp only [Function.comp, (hdm ii hi).1, (hdm ii hi).2, dataRow_eq]

/-- C55: with non-negative flux and cross sections the rows left out are exactly those whose flux is zero in
every group (whose rates are then zero too). -/
theorem C55_dropped_are_zero (groups : ℕ) (flux : ℕ → ℕ → ℕ → K) (xs : ℕ → ℕ → ℕ → K) (mm : ℕ → ℕ)
    (hf : ∀ c i g, 0 ≤ flux c i g) (hx : ∀ m h g, 0 ≤ xs m h g) (cc ii : ℕ) :
    ∑ g ∈ range groups, (flux cc ii g + ∑ k ∈ range groups, xs (mm ii) g k * flux cc ii k) = 0
      ↔ ∀ g < groups, flux cc ii g = 0 := by
  have hr : ∀ g, 0 ≤ ∑ k ∈ range groups, xs (mm ii) g k * flux cc ii k := fun g =>
    sum_nonneg fun k _ => mul_nonneg (hx _ _ _) (hf _ _ _)
  rw [sum_eq_zero_iff_of_nonneg fun g _ => add_nonneg (hf _ _ _) (hr g)]
  constructor
  · intro h g hg
    have := h g (mem_range.mpr hg)
    have h2 := hf cc ii g
    have h3 := hr g
    linarith
  · intro h g hg
    rw [h g (mem_range.mp hg), zero_add]
    refine sum_eq_zero fun k hk => ?_
    rw [h k (mem_range.mp hk), mul_zero]

/-- C55 (limit): a row whose flux is not zero is dropped when its entries and rates cancel - the sum decides,
not the entries - as can happen for fluxes of mixed sign. -/
theorem C55_violation_cancelling_row : combineFluxReaction 1 1 2
    (fun _ _ g => if g = 0 then (1 : ℚ) else -1) (fun _ _ _ => 0) (fun _ => 0) (fun _ => 5) = [] := by
  decide +kernel

/-- One iteration, two cells, one group, flux only in the second cell: one row. -/
example : (combineFluxReaction 1 2 1 (fun _ i _ => if i = 1 then (2 : ℚ) else 0) (fun _ _ _ => 3) (fun _ => 0)
    (fun i => i)).map (fun r => (r.label, r.flux 0, r.rate 0)) = [(1, 2, 6)] := by decide +kernel

/-! ## C56: splitting by material -/

section Split

variable {N R L : Type*} [DecidableEq N] [DecidableEq L]

/-- The labels of different splits do not overlap and the names are different. -/
def Separate (splits : List (N × List L)) : Prop :=
  splits.Pairwise fun a b => a.1 ≠ b.1 ∧ ∀ x ∈ a.2, x ∉ b.2

/-- The row is in one of the files named by the splits. -/
def Saved (files : Files N R) (splits : List (N × List L)) (r : R) : Prop :=
  ∃ s ∈ splits, ∃ rows, files s.1 = some rows ∧ r ∈ rows

theorem split_fold (label : R → L) (rows : List R) (splits : List (N × List L)) (h : Separate splits)
    (c : ℕ) (f : Files N R) :
    (splits.foldl (splitStep label rows) (c, f)).1
      = c + (rows.filter fun r => decide (∃ s ∈ splits, label r ∈ s.2)).length ∧
    (∀ s ∈ splits, ∀ r ∈ rows, label r ∈ s.2 →
      ∃ sel, (splits.foldl (splitStep label rows) (c, f)).2 s.1 = some sel ∧ r ∈ sel) ∧
    (∀ name, (∀ s ∈ splits, s.1 ≠ name) → (splits.foldl (splitStep label rows) (c, f)).2 name = f name) := by
  induction splits generalizing c f with
  | nil => simp
  | cons a t ih =>
    have ha := List.pairwise_cons.mp h
    have hstep : ∃ f' : Files N R, splitStep label rows (c, f) a
        = (c + (rows.filter fun r => decide (label r ∈ a.2)).length, f') ∧
        (∀ r ∈ rows, label r ∈ a.2 → ∃ sel, f' a.1 = some sel ∧ r ∈ sel) ∧
        ∀ name, a.1 ≠ name → f' name = f name := by
      unfold splitStep
      simp only
      split_ifs with h0
      · refine ⟨f, by rw [h0, add_zero], fun r hr hl => ?_, fun _ _ => rfl⟩
        have : r ∈ rows.filter fun r => decide (label r ∈ a.2) := List.mem_filter.mpr ⟨hr, by simpa using hl⟩
        rw [List.length_eq_zero_iff.mp h0] at this
        simp at this
      · refine ⟨_, rfl, fun r hr hl => ⟨_, Function.update_self .., List.mem_filter.mpr ⟨hr, by simpa using hl⟩⟩,
          fun name hn => Function.update_of_ne (Ne.symm hn) ..⟩
    obtain ⟨f', h1, h2, h3⟩ := hstep
    rw [List.foldl_cons, h1]
    obtain ⟨i1, i2, i3⟩ := ih ha.2 (c + (rows.filter fun r => decide (label r ∈ a.2)).length) f'
    refine ⟨?_, fun s hs r hr hl => ?_, fun name hn => ?_⟩
    · rw [i1, add_assoc]
      congr 1
      have key : ∀ rows : List R, (rows.filter fun r => decide (label r ∈ a.2)).length
          + (rows.filter fun r => decide (∃ s ∈ t, label r ∈ s.2)).length
          = (rows.filter fun r => decide (∃ s ∈ a :: t, label r ∈ s.2)).length := by
        intro rows
        induction rows with
        | nil => rfl
        | cons r rs ihr =>
          have hex : (∃ s ∈ a :: t, label r ∈ s.2) ↔ (label r ∈ a.2 ∨ ∃ s ∈ t, label r ∈ s.2) := by simp
          have hdis : label r ∈ a.2 → ¬ ∃ s ∈ t, label r ∈ s.2 := by
            rintro hx ⟨s, hs, hl⟩
            exact (ha.1 s hs).2 _ hx hl
          simp only [List.filter_cons, hex]
          by_cases hA : label r ∈ a.2
          · have hB := hdis hA
            simp only [hA, hB, or_false, decide_true, decide_false, if_true, List.length_cons, Bool.false_eq_true,
              if_false]
            omega
          · by_cases hB : ∃ s ∈ t, label r ∈ s.2
            · simp only [hA, hB, false_or, decide_true, decide_false, if_true, List.length_cons,
                Bool.false_eq_true, if_false]
              omega
            · simp only [hA, hB, false_or, decide_false, Bool.false_eq_true, if_false]
              exact ihr
      exact key rows
    · rcases List.mem_cons.mp hs with rfl | hs
      · obtain ⟨sel, hsel, hm⟩ := h2 r hr hl
        refine ⟨sel, ?_, hm⟩
        rw [i3 s.1 fun u hu => Ne.symm (ha.1 u hu).1]
        exact hsel
      · exact i2 s hs r hr hl
    · rw [i3 name fun s hs => hn s (by simp [hs]), h3 name (hn a (by simp))]

/-- C56: for splits with different names and non-overlapping labels the call completes exactly when every
row's label is listed, and then every row is in a file. -/
theorem C56_no_row_lost_partial (label : R → L) (rows : List R) (splits : List (N × List L))
    (hs : Separate splits) (before : Files N R) :
    ((splitByMaterial label rows splits before).2 = .ok () ↔ ∀ r ∈ rows, ∃ s ∈ splits, label r ∈ s.2) ∧
    ((splitByMaterial label rows splits before).2 = .ok () →
      ∀ r ∈ rows, Saved (splitByMaterial label rows splits before).1 splits r) := by
  obtain ⟨h1, h2, _⟩ := split_fold label rows splits hs 0 before
  have hiff : (splitByMaterial label rows splits before).2 = .ok () ↔
      ∀ r ∈ rows, ∃ s ∈ splits, label r ∈ s.2 := by
    unfold splitByMaterial
    simp only [h1, zero_add]
    constructor
    · intro h
      split_ifs at h with hc
      intro r hr
      have := List.filter_eq_self.mp (List.filter_sublist.eq_of_length hc) r hr
      simpa using this
    · intro h
      rw [if_pos]
      congr 1
      exact List.filter_eq_self.mpr fun r hr => by simpa using h r hr
  refine ⟨hiff, fun hok r hr => ?_⟩
  obtain ⟨s, hsm, hl⟩ := hiff.mp hok r hr
  obtain ⟨sel, h3, h4⟩ := h2 s hsm r hr hl
  exact ⟨s, hsm, sel, h3, h4⟩

end Split

/-- C56 (violation, overlapping labels): two rows, labels 0 and 1; two splits that both list label 0 only.
The count is 2, the assertion holds, and the row with label 1 is in no file. -/
theorem C56_violation_overlap :
    (splitByMaterial (fun r : ℕ => r) [0, 1] [("a", [0]), ("b", [0])] (fun _ => none)).2 = .ok () ∧
    ¬ Saved (splitByMaterial (fun r : ℕ => r) [0, 1] [("a", [0]), ("b", [0])] (fun _ => none)).1
      [("a", [0]), ("b", [0])] 1 := by
  refine ⟨rfl, ?_⟩
  rintro ⟨s, hs, rows, hf, hm⟩
  simp only [List.mem_cons, List.not_mem_nil, or_false] at hs
  rcases hs with rfl | rfl
  · have : some [0] = some rows := hf
    cases this
    simp at hm
  · have : some [0] = some rows := hf
    cases this
    simp at hm

/-- C56 (violation, equal names): two splits with different labels and the same name: the second file
replaces the first, the assertion holds, and the row with label 0 is in no file. -/
theorem C56_violation_same_name :
    (splitByMaterial (fun r : ℕ => r) [0, 1] [("a", [0]), ("a", [1])] (fun _ => none)).2 = .ok () ∧
    ¬ Saved (splitByMaterial (fun r : ℕ => r) [0, 1] [("a", [0]), ("a", [1])] (fun _ => none)).1
      [("a", [0]), ("a", [1])] 0 := by
  refine ⟨rfl, ?_⟩
  rintro ⟨s, hs, rows, hf, hm⟩
  simp only [List.mem_cons, List.not_mem_nil, or_false] at hs
  rcases hs with rfl | rfl
  · have : some [1] = some rows := hf
    cases this
    simp at hm
  · have : some [1] = some rows := hf
    cases this
    simp at hm

example : Separate [("hdpe", [1504]), ("uh3", [0, 15])] := by
  simp [Separate]

/-! ## C57: min_max_normalization -/

theorem rowMax_spec (n : ℕ) (x : ℕ → K) : (∀ i ≤ n, x i ≤ rowMax n x) ∧ ∃ i ≤ n, x i = rowMax n x := by
  induction n with
  | zero => exact ⟨fun i hi => by have : i = 0 := by omega
                                  subst this; exact le_refl _, 0, le_refl _, rfl⟩
  | succ n ih =>
    have e : rowMax (n + 1) x = max (rowMax n x) (x (n + 1)) := rfl
    rw [e]
    refine ⟨fun i hi => ?_, ?_⟩
    · rcases Nat.lt_or_ge i (n + 1) with h | h
      · exact (ih.1 i (by omega)).trans (le_max_left _ _)
      · have : i = n + 1 := by omega
        subst this; exact le_max_right _ _
    · rcases le_total (rowMax n x) (x (n + 1)) with h | h
      · exact ⟨n + 1, le_refl _, (max_eq_right h).symm⟩
      · obtain ⟨i, hi, hx⟩ := ih.2
        exact ⟨i, by omega, hx.trans (max_eq_left h).symm⟩

theorem rowMin_spec (n : ℕ) (x : ℕ → K) : (∀ i ≤ n, rowMin n x ≤ x i) ∧ ∃ i ≤ n, x i = rowMin n x := by
  induction n with
  | zero => exact ⟨fun i hi => by have : i = 0 := by omega
                                  subst this; exact le_refl _, 0, le_refl _, rfl⟩
  | succ n ih =>
    have e : rowMin (n + 1) x = min (rowMin n x) (x (n + 1)) := rfl
    rw [e]
    refine ⟨fun i hi => ?_, ?_⟩
    · rcases Nat.lt_or_ge i (n + 1) with h | h
      · exact (min_le_left _ _).trans (ih.1 i (by omega))
      · have : i = n + 1 := by omega
        subst this; exact min_le_right _ _
    · rcases le_total (rowMin n x) (x (n + 1)) with h | h
      · obtain ⟨i, hi, hx⟩ := ih.2
        exact ⟨i, by omega, hx.trans (min_eq_left h).symm⟩
      · exact ⟨n + 1, le_refl _, (min_eq_right h).symm⟩

/-- C57: for a row of `n + 1` finite entries every normalised entry is in [0,1]; a row that is not constant
attains 0 and 1; a constant row becomes 0; the returned bounds are the largest and smallest entry; and
`low + x (high - low)` gives the data back. -/
theorem C57_normalised (n : ℕ) (x : ℕ → K) :
    (∀ i ≤ n, 0 ≤ (minMax n x).1 i ∧ (minMax n x).1 i ≤ 1) ∧
    ((∃ i ≤ n, ∃ j ≤ n, x i ≠ x j) → (∃ i ≤ n, (minMax n x).1 i = 0) ∧ ∃ i ≤ n, (minMax n x).1 i = 1) ∧
    ((∀ i ≤ n, ∀ j ≤ n, x i = x j) → ∀ i ≤ n, (minMax n x).1 i = 0) ∧
    ((∀ i ≤ n, x i ≤ (minMax n x).2.1 ∧ (minMax n x).2.2 ≤ x i) ∧
      (∃ i ≤ n, x i = (minMax n x).2.1) ∧ ∃ i ≤ n, x i = (minMax n x).2.2) ∧
    ∀ i ≤ n, (minMax n x).2.2 + (minMax n x).1 i * ((minMax n x).2.1 - (minMax n x).2.2) = x i := by
  obtain ⟨hM, iM, hiM, eM⟩ := rowMax_spec n x
  obtain ⟨hm, im, him, em⟩ := rowMin_spec n x
  simp only [minMax]
  refine ⟨fun i hi => ?_, ?_, fun h i hi => ?_, ⟨fun i hi => ⟨hM i hi, hm i hi⟩, ⟨iM, hiM, eM⟩, im, him, em⟩,
    fun i hi => ?_⟩
  · have h1 := hM i hi
    have h2 := hm i hi
    split_ifs with h
    · exact ⟨le_refl _, zero_le_one⟩
    · have hpos : 0 < rowMax n x - rowMin n x := lt_of_le_of_ne (by linarith) (Ne.symm h)
      exact ⟨div_nonneg (by linarith) hpos.le, by rw [div_le_one hpos]; linarith⟩
  · rintro ⟨i, hi, j, hj, hne⟩
    have hne0 : rowMax n x - rowMin n x ≠ 0 := by
      intro h0
      apply hne
      have := hM i hi; have := hm i hi; have := hM j hj; have := hm j hj
      linarith
    refine ⟨⟨im, him, ?_⟩, iM, hiM, ?_⟩
    · rw [if_neg hne0, em, sub_self, zero_div]
    · rw [if_neg hne0, eM, div_self hne0]
  · rw [if_pos]
    rw [← eM, ← em, h iM hiM im him, sub_self]
  · have h1 := hM i hi
    have h2 := hm i hi
    split_ifs with h
    · linarith
    · field_simp
      ring

example : ∃ i ≤ 2, ∃ j ≤ 2, (fun i : ℕ => (i : ℚ)) i ≠ (fun i : ℕ => (i : ℚ)) j := ⟨0, by norm_num, 1, by norm_num, by norm_num⟩

/-! ## C58: error metrics -/

theorem meanOf_eq (n : ℕ) (x : ℕ → K) : meanOf n x = (∑ i ∈ range n, x i) / n := by
  unfold meanOf; rw [accum_eq_sum]

/-- C58 (mse, mae, rmse): the mean squared error is never negative and vanishes exactly for a perfect
prediction; the same holds for the mean absolute error; its square is at most the mean squared error. -/
theorem C58_errors (n : ℕ) (hn : 0 < n) (y p : ℕ → K) :
    0 ≤ meanSquaredError n y p ∧ (meanSquaredError n y p = 0 ↔ ∀ i < n, y i = p i) ∧
    0 ≤ meanAbsoluteError n y p ∧ (meanAbsoluteError n y p = 0 ↔ ∀ i < n, y i = p i) ∧
    meanAbsoluteError n y p ^ 2 ≤ meanSquaredError n y p := by
  have hN : (0 : K) < n := by exact_mod_cast hn
  simp only [meanSquaredError, meanAbsoluteError, meanOf_eq]
  refine ⟨by positivity, ?_, by positivity, ?_, ?_⟩
  · rw [div_eq_zero_iff, or_iff_left hN.ne', sum_eq_zero_iff_of_nonneg fun i _ => sq_nonneg _]
    constructor
    · intro h i hi
      have := h i (mem_range.mpr hi)
      exact sub_eq_zero.mp (pow_eq_zero_iff (by norm_num) |>.mp this)
    · intro h i hi
      rw [h i (mem_range.mp hi), sub_self]; ring
  · rw [div_eq_zero_iff, or_iff_left hN.ne', sum_eq_zero_iff_of_nonneg fun i _ => abs_nonneg _]
    constructor
    · intro h i hi
      exact sub_eq_zero.mp (abs_eq_zero.mp (h i (mem_range.mpr hi)))
    · intro h i hi
      rw [h i (mem_range.mp hi), sub_self, abs_zero]
  · rw [div_pow, div_le_div_iff₀ (by positivity) hN]
    have := sq_sum_le_card_mul_sum_sq (s := range n) (f := fun i => |y i - p i|)
    rw [card_range] at this
    simp only [sq_abs] at this
    nlinarith

/-- C58: the mean absolute error is at most the root mean squared error. -/
theorem C58_mae_le_rmse (n : ℕ) (hn : 0 < n) (y p : ℕ → ℝ) :
    meanAbsoluteError n y p ≤ rootMeanSquaredError n y p :=
  Real.le_sqrt_of_sq_le (C58_errors n hn y p).2.2.2.2

/-- Sum of squared deviations from the mean. -/
def spread (n : ℕ) (x : ℕ → K) : K := ∑ i ∈ range n, (x i - (∑ j ∈ range n, x j) / n) ^ 2

theorem spread_eq (n : ℕ) (hn : 0 < n) (x : ℕ → K) :
    spread n x = ∑ i ∈ range n, x i ^ 2 - (∑ i ∈ range n, x i) ^ 2 / n := by
  have hN : (n : K) ≠ 0 := by exact_mod_cast hn.ne'
  unfold spread
  set m := (∑ j ∈ range n, x j) / n with hm
  have h1 : ∀ i ∈ range n, (x i - m) ^ 2 = x i ^ 2 - 2 * m * x i + m ^ 2 := fun i _ => by ring
  rw [sum_congr rfl h1, sum_add_distrib, sum_sub_distrib, ← mul_sum, sum_const, card_range, nsmul_eq_mul]
  have h2 : (∑ i ∈ range n, x i) = n * m := by rw [hm]; field_simp
  rw [h2]
  field_simp
  ring

theorem spread_zero_iff (n : ℕ) (x : ℕ → K) :
    spread n x = 0 ↔ ∀ i < n, x i = (∑ j ∈ range n, x j) / n := by
  unfold spread
  rw [sum_eq_zero_iff_of_nonneg fun i _ => sq_nonneg _]
  constructor
  · intro h i hi
    exact sub_eq_zero.mp (pow_eq_zero_iff (by norm_num) |>.mp (h i (mem_range.mpr hi)))
  · intro h i hi
    rw [h i (mem_range.mp hi), sub_self]; ring

theorem variance_eq (n : ℕ) (x : ℕ → K) : variance n x = spread n x / n := by
  simp only [variance, meanOf_eq, spread]

theorem r2_eq (n : ℕ) (y p : ℕ → K) : r2Score n y p
    = if spread n y = 0 then 0 else 1 - (∑ i ∈ range n, (y i - p i) ^ 2) / spread n y := by
  simp only [r2Score, accum_eq_sum, meanOf_eq, spread]
  rfl

theorem ev_eq (n : ℕ) (hn : 0 < n) (y p : ℕ → K) : explainedVariance n y p
    = if spread n y = 0 then 0 else 1 - spread n (fun i => y i - p i) / spread n y := by
  have hN : (n : K) ≠ 0 := by exact_mod_cast hn.ne'
  simp only [explainedVariance, variance_eq, div_eq_zero_iff, hN, or_false]
  split_ifs with h
  · rfl
  · field_simp

/-- C58 (scores): for a truth that is not constant `r2 <= 1`, with equality exactly for a perfect prediction;
`r2 <= explained variance <= 1`; the two agree exactly when the residuals have zero mean; and
`r2 = 1 - mse / variance`. -/
theorem C58_scores_partial (n : ℕ) (hn : 0 < n) (y p : ℕ → K) (hv : ∃ i < n, ∃ j < n, y i ≠ y j) :
    r2Score n y p ≤ 1 ∧ (r2Score n y p = 1 ↔ ∀ i < n, y i = p i) ∧
    r2Score n y p ≤ explainedVariance n y p ∧ explainedVariance n y p ≤ 1 ∧
    (r2Score n y p = explainedVariance n y p ↔ ∑ i ∈ range n, (y i - p i) = 0) ∧
    r2Score n y p = 1 - meanSquaredError n y p / variance n y := by
  have hN : (0 : K) < n := by exact_mod_cast hn
  have hs0 : spread n y ≠ 0 := by
    intro h
    obtain ⟨i, hi, j, hj, hne⟩ := hv
    have := (spread_zero_iff n y).mp h
    exact hne ((this i hi).trans (this j hj).symm)
  have hsn : ∀ x : ℕ → K, 0 ≤ spread n x := fun x => sum_nonneg fun i _ => sq_nonneg _
  have hs : 0 < spread n y := lt_of_le_of_ne (hsn y) (Ne.symm hs0)
  have hnum : 0 ≤ ∑ i ∈ range n, (y i - p i) ^ 2 := sum_nonneg fun i _ => sq_nonneg _
  rw [r2_eq, ev_eq n hn, if_neg hs0, if_neg hs0]
  have hsp := spread_eq n hn fun i => y i - p i
  have hsq : 0 ≤ (∑ i ∈ range n, (y i - p i)) ^ 2 / n := by positivity
  refine ⟨?_, ?_, ?_, ?_, ?_, ?_⟩
  · have : 0 ≤ (∑ i ∈ range n, (y i - p i) ^ 2) / spread n y := div_nonneg hnum hs.le
    linarith
  · rw [sub_eq_self, div_eq_zero_iff, or_iff_left hs0, sum_eq_zero_iff_of_nonneg fun i _ => sq_nonneg _]
    constructor
    · intro h i hi
      exact sub_eq_zero.mp (pow_eq_zero_iff (by norm_num) |>.mp (h i (mem_range.mpr hi)))
    · intro h i hi
      rw [h i (mem_range.mp hi), sub_self]; ring
  · have : spread n (fun i => y i - p i) / spread n y ≤ (∑ i ∈ range n, (y i - p i) ^ 2) / spread n y :=
      div_le_div_of_nonneg_right (by rw [hsp]; linarith) hs.le
    linarith
  · have := div_nonneg (hsn fun i => y i - p i) hs.le
    linarith
  · rw [sub_right_inj, div_left_inj' hs0, hsp]
    constructor
    · intro h
      have h2 : (∑ i ∈ range n, (y i - p i)) ^ 2 / (n : K) = 0 := by linarith
      rw [div_eq_zero_iff, or_iff_left hN.ne'] at h2
      exact pow_eq_zero_iff (by norm_num) |>.mp h2
    · intro h
      rw [h]; ring
  · rw [variance_eq]
    simp only [meanSquaredError, meanOf_eq]
    field_simp

/-- C58 (violation): for a constant truth every prediction, perfect or not, scores 0. -/
theorem C58_violation_constant_truth (n : ℕ) (hn : 0 < n) (c : K) (p : ℕ → K) :
    r2Score n (fun _ => c) p = 0 ∧ explainedVariance n (fun _ => c) p = 0 ∧
    r2Score n (fun _ => c) (fun _ => c) = 0 := by
  have hN : (n : K) ≠ 0 := by exact_mod_cast hn.ne'
  have h : spread n (fun _ => c) = 0 := by
    rw [spread_zero_iff]
    intro i _
    rw [sum_const, card_range, nsmul_eq_mul]
    field_simp
  refine ⟨?_, ?_, ?_⟩
  · rw [r2_eq, if_pos h]
  · rw [ev_eq n hn, if_pos h]
  · rw [r2_eq, if_pos h]

/-- A truth of two different values. -/
example : ∃ i < 2, ∃ j < 2, (fun i : ℕ => (i : ℚ)) i ≠ (fun i : ℕ => (i : ℚ)) j := ⟨0, by norm_num, 1, by norm_num, by norm_num⟩

end Discrete1.Props
