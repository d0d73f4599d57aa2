import Verif.Props.Tools
import Verif.Model.MlSource
import Mathlib.Data.List.GetD
import Mathlib.Data.List.Nodup

/-!
# C52, C53: machine-learning sources conserve the reaction rates
-/

set_option linter.unusedSectionVars false
set_option linter.unusedSimpArgs false

namespace Discrete1.Props

open Finset Discrete1.Tools Discrete1.Ml

variable {K : Type*} [Field K] [LinearOrder K] [IsStrictOrderedRing K]

theorem mem_cellsOf {cells : ℕ} {mm : ℕ → ℕ} {nn i : ℕ} : i ∈ cellsOf cells mm nn ↔ i < cells ∧ mm i = nn := by
  simp [cellsOf]

theorem rowsOf_idxOf {cells : ℕ} {mm : ℕ → ℕ} {nn i : ℕ} (h : i ∈ cellsOf cells mm nn) (flux : ℕ → ℕ → K) :
    rowsOf (cellsOf cells mm nn) flux ((cellsOf cells mm nn).idxOf i) = flux i := by
  funext g
  unfold rowsOf
  rw [List.getD_eq_getElem _ _ (List.idxOf_lt_length_of_mem h), List.getElem_idxOf]

theorem getD_idxOf {cells : ℕ} {mm : ℕ → ℕ} {nn i : ℕ} (h : i ∈ cellsOf cells mm nn) :
    (cellsOf cells mm nn).getD ((cellsOf cells mm nn).idxOf i) 0 = i := by
  rw [List.getD_eq_getElem _ _ (List.idxOf_lt_length_of_mem h), List.getElem_idxOf]

theorem putRows_of_not_mem {idx : List ℕ} {rows source : ℕ → ℕ → K} {i g : ℕ} (h : i ∉ idx) :
    putRows idx rows source i g = source i g := by simp [putRows, h]

theorem putRows_of_mem {idx : List ℕ} {rows source : ℕ → ℕ → K} {i g : ℕ} (h : i ∈ idx) :
    putRows idx rows source i g = rows (idx.idxOf i) g := by simp [putRows, h]

/-- A block of non-negative rows sums to zero only if every row vanishes. -/
theorem blockSum_eq_zero {groups n : ℕ} {f : ℕ → ℕ → K} (hf : ∀ r < n, ∀ g < groups, 0 ≤ f r g)
    (h : blockSum groups n f = 0) : ∀ r < n, ∀ g < groups, f r g = 0 := by
  unfold blockSum at h
  rw [accum_eq_sum] at h
  simp only [accum_eq_sum] at h
  intro r hr g hg
  have h1 := (sum_eq_zero_iff_of_nonneg fun r hr => sum_nonneg fun g hg =>
    hf r (mem_range.mp hr) g (mem_range.mp hg)).mp h r (mem_range.mpr hr)
  exact (sum_eq_zero_iff_of_nonneg fun g hg => hf r hr g (mem_range.mp hg)).mp h1 g (mem_range.mpr hg)

/-- A rescaled row sums to `scale / keff`. -/
theorem rescale_sum {groups : ℕ} (scale : ℕ → K) (keff : K) (pred : ℕ → ℕ → K) (r : ℕ)
    (h : ∑ g ∈ range groups, pred r g ≠ 0) :
    ∑ g ∈ range groups, rescale groups scale keff pred r g = scale r / keff := by
  unfold rescale
  simp only [accum_eq_sum]
  rw [← sum_mul, ← sum_div]
  field_simp

/-- The scaling factor computed from updated cross sections is the exact rate summed over outgoing groups. -/
theorem scale_updated (groups : ℕ) (xs : ℕ → ℕ → ℕ → K) (modelIdx : List ℕ) (nn : ℕ) (hn : nn ∈ modelIdx)
    (rows : ℕ → ℕ → K) (r : ℕ) :
    scaleOf groups (updateCrossSections groups xs modelIdx) nn rows r
      = ∑ og ∈ range groups, ∑ ig ∈ range groups, xs nn og ig * rows r ig := by
  unfold scaleOf updateCrossSections
  rw [accum_eq_sum]
  simp only [if_pos hn, if_true]
  rw [sum_comm]
  refine sum_congr rfl fun g _ => ?_
  rw [mul_sum]
  exact sum_congr rfl fun _ _ => mul_comm _ _

theorem updated_other (groups : ℕ) (xs : ℕ → ℕ → ℕ → K) (modelIdx : List ℕ) (nn : ℕ) (hn : nn ∉ modelIdx) :
    updateCrossSections groups xs modelIdx nn = xs nn := by
  funext a b
  simp [updateCrossSections, hn]

/-- Cell `i` of the loop over models is written by the model of its own material only. -/
theorem fission_cell (cells groups count : ℕ) (flux : ℕ → ℕ → K) (xs : ℕ → ℕ → ℕ → K) (mm : ℕ → ℕ)
    (keff : K) (models : ℕ → Option (Predict K)) (i : ℕ) :
    (count ≤ mm i → ∀ g, fissionProdPredict cells groups count flux xs mm keff models i g = 0) ∧
    (mm i < count → ∃ source : ℕ → ℕ → K, (∀ g, source i g = 0) ∧
      ∀ g, fissionProdPredict cells groups count flux xs mm keff models i g
        = fissionModelStep cells groups flux xs mm keff models (mm i) source i g) := by
  have hother : ∀ nn (source : ℕ → ℕ → K) g, nn ≠ mm i →
      fissionModelStep cells groups flux xs mm keff models nn source i g = source i g := by
    intro nn source g hne
    have hmem : i ∉ cellsOf cells mm nn := fun h => hne (mem_cellsOf.mp h).2.symm
    unfold fissionModelStep
    cases models nn with
    | none => exact putRows_of_not_mem hmem
    | some f =>
      simp only
      split_ifs
      · rfl
      · exact putRows_of_not_mem hmem
  unfold fissionProdPredict
  induction count with
  | zero => exact ⟨fun _ g => rfl, fun h => absurd h (Nat.not_lt_zero _)⟩
  | succ n ih =>
    refine ⟨fun h g => ?_, fun h => ?_⟩
    · rw [loop_succ, hother _ _ _ (by omega)]; exact ih.1 (by omega) g
    · rcases Nat.lt_or_ge (mm i) n with h1 | h1
      · obtain ⟨s, hs, he⟩ := ih.2 h1
        exact ⟨s, hs, fun g => by rw [loop_succ, hother _ _ _ (by omega)]; exact he g⟩
      · have hn : n = mm i := by omega
        refine ⟨_, fun g => ih.1 h1 g, fun g => ?_⟩
        rw [loop_succ, hn]

/-- C52: after `update_cross_sections` for the materials with a model, the predicted fission source of a cell
whose material has a model sums over the groups to the exact fission production divided by `keff`, for every
model whose output rows have nonzero sums; a cell whose material has an integer placeholder gets exactly the
physics source; every listed material is covered by one of the two cases. -/
theorem C52_fission_conserved (cells groups count : ℕ) (flux : ℕ → ℕ → K) (xs : ℕ → ℕ → ℕ → K) (mm : ℕ → ℕ)
    (keff : K) (models : ℕ → Option (Predict K)) (modelIdx : List ℕ)
    (hidx : ∀ nn < count, (nn ∈ modelIdx ↔ models nn ≠ none))
    (hflux : ∀ i < cells, ∀ g < groups, 0 ≤ flux i g)
    (hxs : ∀ m, ∀ o < groups, ∀ i < groups, 0 ≤ xs m o i)
    (hpred : ∀ nn f, models nn = some f → ∀ n rows, ∀ r < n, ∑ g ∈ range groups, f n rows r g ≠ 0)
    (i : ℕ) (hi : i < cells) (hm : mm i < count) :
    let source := fissionProdPredict cells groups count flux (updateCrossSections groups xs modelIdx) mm keff
      models
    (models (mm i) ≠ none → ∑ g ∈ range groups, source i g
      = (∑ g ∈ range groups, ∑ g' ∈ range groups, xs (mm i) g g' * flux i g') / keff) ∧
    (models (mm i) = none → ∀ g < groups, source i g
      = (∑ g' ∈ range groups, xs (mm i) g g' * flux i g') / keff) := by
  intro source
  obtain ⟨s, hs0, hs⟩ := (fission_cell cells groups count flux (updateCrossSections groups xs modelIdx) mm keff
    models i).2 hm
  have hmem : i ∈ cellsOf cells mm (mm i) := mem_cellsOf.mpr ⟨hi, rfl⟩
  constructor
  · intro hne
    obtain ⟨f, hf⟩ := Option.ne_none_iff_exists'.mp hne
    have hin : mm i ∈ modelIdx := (hidx _ hm).mpr hne
    have e : ∀ g, source i g = fissionModelStep cells groups flux (updateCrossSections groups xs modelIdx) mm keff
      models (mm i) s i g := hs
    simp only [e]
    unfold fissionModelStep
    simp only [hf]
    split_ifs with hz
    · -- the whole block is zero
      have hzero := blockSum_eq_zero (groups := groups) (f := rowsOf (cellsOf cells mm (mm i)) flux)
        (fun r hr g hg => by
          unfold rowsOf
          rw [List.getD_eq_getElem _ _ hr]
          exact hflux _ (mem_cellsOf.mp (List.getElem_mem hr)).1 g hg) hz
        ((cellsOf cells mm (mm i)).idxOf i) (List.idxOf_lt_length_of_mem hmem)
      rw [rowsOf_idxOf hmem] at hzero
      rw [sum_eq_zero fun g _ => hs0 g, sum_eq_zero fun g _ => sum_eq_zero fun g' hg' => by
        rw [hzero g' (mem_range.mp hg'), mul_zero], zero_div]
    · simp only [putRows_of_mem hmem]
      rw [rescale_sum _ _ _ _ (hpred _ f hf _ _ _ (List.idxOf_lt_length_of_mem hmem)), scale_updated _ _ _ _ hin,
        rowsOf_idxOf hmem]
  · intro hnone g hg
    have hout : mm i ∉ modelIdx := fun h => ((hidx _ hm).mp h) hnone
    rw [show source i g = _ from hs g]
    unfold fissionModelStep
    simp only [hnone]
    rw [putRows_of_mem hmem, C25_matrix_source groups _ _ _ _ _ g hg]
    · beta_reduce
      rw [getD_idxOf hmem, updated_other _ _ _ _ hout, rowsOf_idxOf hmem]
    · beta_reduce
      rw [getD_idxOf hmem, updated_other _ _ _ _ hout]
      exact hxs (mm i)

/-- C52: a cell whose material is not in the list of models gets no fission source at all. -/
theorem C52_unlisted_material (cells groups count : ℕ) (flux : ℕ → ℕ → K) (xs : ℕ → ℕ → ℕ → K) (mm : ℕ → ℕ)
    (keff : K) (models : ℕ → Option (Predict K)) (i g : ℕ) (h : count ≤ mm i) :
    fissionProdPredict cells groups count flux xs mm keff models i g = 0 :=
  (fission_cell cells groups count flux xs mm keff models i).1 h g

/-! ## C53 -/

/-- Labels are usable: one for all, or one for each model. -/
def LabelsFor (count : ℕ) : Label → Prop
  | .none => False
  | .one => True
  | .perMaterial n => 0 < n ∧ count ≤ n

/-- One model of the scatter loop, given a usable label. -/
theorem scatterModelStep_ok (cells groups : ℕ) (flux : ℕ → ℕ → K) (xs : ℕ → ℕ → ℕ → K) (mm : ℕ → ℕ)
    (models : ℕ → Option (Predict K)) (label : Label) (nn count : ℕ) (hn : nn < count)
    (hl : LabelsFor count label) (source : ℕ → ℕ → K) :
    scatterModelStep cells groups flux xs mm models label nn source
      = .ok (match models nn with
        | none => putRows (cellsOf cells mm nn) (scatterProd groups (rowsOf (cellsOf cells mm nn) flux) xs
            (rowsOf (cellsOf cells mm nn) source) fun r => mm ((cellsOf cells mm nn).getD r 0)) source
        | some predict =>
          if blockSum groups (cellsOf cells mm nn).length (rowsOf (cellsOf cells mm nn) flux) = 0 then source
          else putRows (cellsOf cells mm nn) (rescale groups
            (scaleOf groups xs nn (rowsOf (cellsOf cells mm nn) flux)) 1
            (predict (cellsOf cells mm nn).length (rowsOf (cellsOf cells mm nn) flux))) source) := by
  unfold scatterModelStep
  simp only
  cases models nn with
  | none => rfl
  | some f =>
    simp only
    split_ifs with h1 h2
    · rfl
    · exfalso
      cases label with
      | none => exact hl
      | one => simp at h2
      | perMaterial n => simp at h2; have := hl.2; omega
    · rfl

theorem scatter_cells (cells groups count : ℕ) (flux : ℕ → ℕ → K) (xs : ℕ → ℕ → ℕ → K) (mm : ℕ → ℕ)
    (models : ℕ → Option (Predict K)) (label : Label) (hl : LabelsFor count label) :
    ∃ source, scatterProdPredict cells groups count flux xs mm models label = .ok source ∧
      (∀ i g, count ≤ mm i → source i g = 0) ∧
      ∀ i, mm i < count → ∃ before after : ℕ → ℕ → K, (∀ g, before i g = 0) ∧
        scatterModelStep cells groups flux xs mm models label (mm i) before = .ok after ∧
        ∀ g, source i g = after i g := by
  have hother : ∀ nn < count, ∀ (source after : ℕ → ℕ → K) i g, nn ≠ mm i →
      scatterModelStep cells groups flux xs mm models label nn source = .ok after → after i g = source i g := by
    intro nn hn source after i g hne h
    have hmem : i ∉ cellsOf cells mm nn := fun h => hne (mem_cellsOf.mp h).2.symm
    rw [scatterModelStep_ok cells groups flux xs mm models label nn count hn hl] at h
    have h := Except.ok.inj h
    rw [← h]
    cases models nn with
    | none => exact putRows_of_not_mem hmem
    | some f =>
      simp only
      split_ifs
      · rfl
      · exact putRows_of_not_mem hmem
  obtain ⟨source, h1, h2⟩ := loopE_inv (fun k (s : ℕ → ℕ → K) => (∀ i g, k ≤ mm i → s i g = 0) ∧
      ∀ i, mm i < k → ∃ before after : ℕ → ℕ → K, (∀ g, before i g = 0) ∧
        scatterModelStep cells groups flux xs mm models label (mm i) before = .ok after ∧
        ∀ g, s i g = after i g) count (scatterModelStep cells groups flux xs mm models label) (fun _ _ => 0)
    ⟨fun _ _ _ => rfl, fun i h => absurd h (Nat.not_lt_zero _)⟩ (fun k hk s hs => by
      refine ⟨_, scatterModelStep_ok cells groups flux xs mm models label k count hk hl s, ?_, ?_⟩
      · intro i g h
        rw [hother k hk s _ i g (by omega)
          (scatterModelStep_ok cells groups flux xs mm models label k count hk hl s)]
        exact hs.1 i g (by omega)
      · intro i h
        rcases Nat.lt_or_ge (mm i) k with h1 | h1
        · obtain ⟨b, a, hb, hstep, ha⟩ := hs.2 i h1
          refine ⟨b, a, hb, hstep, fun g => ?_⟩
          rw [hother k hk s _ i g (by omega)
            (scatterModelStep_ok cells groups flux xs mm models label k count hk hl s)]
          exact ha g
        · have hk' : mm i = k := by omega
          refine ⟨s, _, fun g => hs.1 i g h1, ?_, fun g => rfl⟩
          rw [hk']
          exact scatterModelStep_ok cells groups flux xs mm models label k count hk hl s)
  refine ⟨source, ?_, h2⟩
  unfold scatterProdPredict
  cases label with
  | none => exact absurd hl (by simp [LabelsFor])
  | one => exact h1
  | perMaterial n =>
    cases n with
    | zero => exact absurd hl.1 (by simp)
    | succ n => exact h1

/-- C53 (labelled part): with a usable label the predicted scattering source of a cell whose material has a
model sums over the groups to the exact scattering rate (cross sections prepared by `update_cross_sections`),
and a cell whose material has an integer placeholder gets the physics source. -/
theorem C53_scatter_conserved_partial (cells groups count : ℕ) (flux : ℕ → ℕ → K) (xs : ℕ → ℕ → ℕ → K) (mm : ℕ → ℕ)
    (models : ℕ → Option (Predict K)) (label : Label) (hl : LabelsFor count label) (modelIdx : List ℕ)
    (hidx : ∀ nn < count, (nn ∈ modelIdx ↔ models nn ≠ none))
    (hflux : ∀ i < cells, ∀ g < groups, 0 ≤ flux i g)
    (hxs : ∀ m, ∀ o < groups, ∀ i < groups, 0 ≤ xs m o i)
    (hpred : ∀ nn f, models nn = some f → ∀ n rows, ∀ r < n, ∑ g ∈ range groups, f n rows r g ≠ 0) :
    ∃ source, scatterProdPredict cells groups count flux (updateCrossSections groups xs modelIdx) mm models label
        = .ok source ∧
      ∀ i < cells, mm i < count →
        (models (mm i) ≠ none → ∑ g ∈ range groups, source i g
          = ∑ g ∈ range groups, ∑ g' ∈ range groups, xs (mm i) g g' * flux i g') ∧
        (models (mm i) = none → ∀ g < groups, source i g
          = ∑ g' ∈ range groups, xs (mm i) g g' * flux i g') := by
  obtain ⟨source, h1, _, h3⟩ := scatter_cells cells groups count flux (updateCrossSections groups xs modelIdx) mm
    models label hl
  refine ⟨source, h1, fun i hi hm => ?_⟩
  obtain ⟨b, a, hb, hstep, ha⟩ := h3 i hm
  rw [scatterModelStep_ok cells groups flux _ mm models label (mm i) count hm hl] at hstep
  have hstep := Except.ok.inj hstep
  have hmem : i ∈ cellsOf cells mm (mm i) := mem_cellsOf.mpr ⟨hi, rfl⟩
  constructor
  · intro hne
    obtain ⟨f, hf⟩ := Option.ne_none_iff_exists'.mp hne
    have hin : mm i ∈ modelIdx := (hidx _ hm).mpr hne
    simp only [hf] at hstep
    simp only [ha, ← hstep]
    split_ifs with hz
    · have hzero := blockSum_eq_zero (groups := groups) (f := rowsOf (cellsOf cells mm (mm i)) flux)
        (fun r hr g hg => by
          unfold rowsOf
          rw [List.getD_eq_getElem _ _ hr]
          exact hflux _ (mem_cellsOf.mp (List.getElem_mem hr)).1 g hg) hz
        ((cellsOf cells mm (mm i)).idxOf i) (List.idxOf_lt_length_of_mem hmem)
      rw [rowsOf_idxOf hmem] at hzero
      rw [sum_eq_zero fun g _ => hb g, sum_eq_zero fun g _ => sum_eq_zero fun g' hg' => by
        rw [hzero g' (mem_range.mp hg'), mul_zero]]
    · simp only [putRows_of_mem hmem]
      rw [rescale_sum _ _ _ _ (hpred _ f hf _ _ _ (List.idxOf_lt_length_of_mem hmem)), scale_updated _ _ _ _ hin,
        rowsOf_idxOf hmem, div_one]
  · intro hnone g hg
    have hout : mm i ∉ modelIdx := fun h => ((hidx _ hm).mp h) hnone
    simp only [hnone] at hstep
    rw [ha, ← hstep, putRows_of_mem hmem]
    unfold scatterProd
    simp only
    rw [getD_idxOf hmem, updated_other _ _ _ _ hout, rowsOf_idxOf hmem, rowsOf_idxOf hmem, matSum_eq, accum_eq_sum]
    split_ifs with hz
    · rw [hb g]
      have r := (sum_eq_zero_iff_of_nonneg fun o ho => sum_nonneg fun i' hi' =>
        hxs (mm i) o (mem_range.mp ho) i' (mem_range.mp hi')).mp hz g (mem_range.mpr hg)
      have r2 := (sum_eq_zero_iff_of_nonneg fun i' hi' => hxs (mm i) g hg i' (mem_range.mp hi')).mp r
      rw [sum_eq_zero fun i' hi' => by rw [r2 i' hi', zero_mul]]
    · exact sum_congr rfl fun _ _ => mul_comm _ _

/-- C53 is violated without a label: `label=None` always raises TypeError (`label[0]`), whatever the models,
even if all of them are integer placeholders; so does `ml_source_iteration` with the default label. -/
theorem C53_violation_no_label (cells groups count : ℕ) (flux : ℕ → ℕ → K) (xs : ℕ → ℕ → ℕ → K) (mm : ℕ → ℕ)
    (models : ℕ → Option (Predict K)) :
    scatterProdPredict cells groups count flux xs mm models .none = .error .typeError ∧
    ∀ (p : MultiGroup.Problem K) (conv : (ℕ → ℕ → K) → (ℕ → ℕ → K) → Bool) (xsTotal : ℕ → ℕ → K)
      (external boundary : Arr3 K) (guess : ℕ → ℕ → K),
      mlSourceIteration p conv xsTotal xs external boundary count models .none guess = .error .typeError := by
  refine ⟨rfl, fun p conv xsTotal external boundary guess => ?_⟩
  unfold mlSourceIteration
  exact iterateE_error _ _ _ (fun a => rfl) 49 guess

-- three cells of two materials: material 0 has a (constant) model, material 1 a placeholder
example : LabelsFor 2 .one ∧
    (∀ nn < 2, (nn ∈ [0] ↔ (fun n => if n = 0 then some fun (_ : ℕ) (_ : ℕ → ℕ → ℚ) (_ : ℕ) (_ : ℕ) => (1 : ℚ)
      else none) nn ≠ none)) ∧
    (∀ nn f, (fun n => if n = 0 then some fun (_ : ℕ) (_ : ℕ → ℕ → ℚ) (_ : ℕ) (_ : ℕ) => (1 : ℚ) else none) nn
      = some f → ∀ (n : ℕ) (rows : ℕ → ℕ → ℚ), ∀ r < n, ∑ g ∈ range 2, f n rows r g ≠ 0) := by
  refine ⟨trivial, fun nn hn => ?_, fun nn f h n rows r _ => ?_⟩
  · have : nn = 0 ∨ nn = 1 := by omega
    rcases this with rfl | rfl <;> simp
  · simp only at h
    split_ifs at h
    cases h
    norm_num

end Discrete1.Props
