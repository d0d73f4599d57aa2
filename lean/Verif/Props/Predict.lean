import Verif.Model.Predict
import Verif.Props.Train
import Verif.Props.MlSource

/-!
# C106-C110: model wrappers (`ml/predict.py`) and the locality of predicted sources
-/

set_option linter.unusedSectionVars false
set_option linter.unusedSimpArgs false

namespace Discrete1.Props

open Finset Discrete1.Predict

/-! ## C106: predicting does not change the caller's flux -/

/-- C106 for `DJINN` and `AutoDJINN`: whatever the transformer does to its argument, the caller's flux array
holds after `predict` what it held before. -/
theorem C106_copies {K : Type} (t : Transformer (List K)) (ot : Option (Transformer (List K)))
    (d : List (List K) → List (List K)) (od : Option (List (List K) → List (List K)))
    (encoder model decoder : List (List K) → List (List K)) (label : Option (List K)) (flux : List (List K)) :
    (djinnPredict ot od model label flux).2 = flux ∧
      (autoPredict t d encoder model decoder label flux).2 = flux := ⟨rfl, rfl⟩

/-- C106 for `DeepONet`: the caller's array survives exactly when the transformer leaves its argument alone. -/
theorem C106_deeponet_partial {K : Type} (t : Transformer (List K)) (d : List (List K) → List (List K))
    (model : List (List K × List K) → List (List K)) (label : List K) (flux : List (List K)) :
    (deepPredict t d model label flux).2 = flux ↔ (t flux).2 = flux := Iff.rfl

/-- The transformer `def f(x): x **= 3; return x`: in place. -/
def cubeInPlace : Transformer (List ℚ) := fun flux =>
  (flux.map (·.map fun v => v ^ 3), flux.map (·.map fun v => v ^ 3))

/-- C106 fails for `DeepONet`: with an in-place transformer the call succeeds and the caller's flux is
overwritten; a second identical call then returns something else.  `DJINN` with the same transformer returns the
same thing twice. -/
theorem C106_violation_deeponet :
    ∃ (model : List (List ℚ × List ℚ) → List (List ℚ)) (label : List ℚ) (flux : List (List ℚ))
      (first second : List (List ℚ)),
      let r := deepPredict cubeInPlace id model label flux
      r.1 = .ok first ∧ r.2 ≠ flux ∧ (deepPredict cubeInPlace id model label r.2).1 = .ok second ∧
        first ≠ second := by
  refine ⟨fun rows => rows.map Prod.fst, [1], [[2]], [[8]], [[512]], ?_, ?_, ?_, ?_⟩
  · norm_num [deepPredict, cubeInPlace, tile, Ml.predict, Ml.loaderBatches, Except.map]
  · norm_num [deepPredict, cubeInPlace, tile]
  · norm_num [deepPredict, cubeInPlace, tile, Ml.predict, Ml.loaderBatches, Except.map]
  · norm_num

example : ∃ t : Transformer (List ℚ), (t [[2]]).2 = [[2]] ∧ (t [[2]]).1 = [[8]] :=
  ⟨fun flux => (flux.map (·.map fun v => v ^ 3), flux), rfl, by norm_num⟩

/-! ## C107: predictions are made row by row -/

theorem hstack_tile {K : Type} (l : List K) (x : List (List K)) :
    hstack (tile l x.length) x = x.map (l ++ ·) := by
  unfold hstack tile
  induction x with
  | nil => rfl
  | cons a x ih => simp [List.replicate_succ, ih]

theorem zip_tile {K : Type} (l : List K) (x : List (List K)) (n : ℕ) (h : x.length = n) :
    x.zip (tile l n) = x.map fun row => (row, l) := by
  subst h
  unfold tile
  induction x with
  | nil => rfl
  | cons a x ih => simp [List.replicate_succ, ih]

/-- C107 for `DJINN`: if transformer, model and detransformer work row by row, so does `predict`; with a label
each row is prefixed by it. -/
theorem C107_djinn {K : Type} (ot : Option (Transformer (List K))) (od : Option (List (List K) → List (List K)))
    (model : List (List K) → List (List K)) (f h k : List K → List K)
    (ht : ∀ t, ot = some t → ∀ x, (t x).1 = x.map f) (ht0 : ot = none → f = id)
    (hm : ∀ x, model x = x.map h) (hd : ∀ d, od = some d → ∀ x, d x = x.map k) (hd0 : od = none → k = id)
    (label : Option (List K)) (flux : List (List K)) :
    (djinnPredict ot od model label flux).1
      = flux.map fun row => k (h (match label with | some l => l ++ f row | none => f row)) := by
  unfold djinnPredict
  cases ot with
  | none =>
    have e := ht0 rfl
    subst e
    cases od with
    | none =>
      have e2 := hd0 rfl
      subst e2
      cases label with
      | none => simp [hm]
      | some l => simp only [hstack_tile]; simp [hm]
    | some d =>
      have hdd := hd d rfl
      cases label with
      | none => simp [hm, hdd]
      | some l => simp only [hstack_tile]; simp [hm, hdd]
  | some t =>
    have htt := ht t rfl
    cases od with
    | none =>
      have e2 := hd0 rfl
      subst e2
      cases label with
      | none => simp [hm, htt]
      | some l => simp only [hstack_tile, htt]; simp [hm]
    | some d =>
      have hdd := hd d rfl
      cases label with
      | none => simp [hm, hdd, htt]
      | some l => simp only [hstack_tile, htt]; simp [hm, hdd]

/-- C107 for `AutoDJINN`: the label is prefixed both to the transformed row and to the encoded row. -/
theorem C107_autodjinn {K : Type} (t : Transformer (List K)) (d encoder model decoder : List (List K) → List (List K))
    (f k e h b : List K → List K) (ht : ∀ x, (t x).1 = x.map f) (hd : ∀ x, d x = x.map k)
    (he : ∀ x, encoder x = x.map e) (hm : ∀ x, model x = x.map h) (hb : ∀ x, decoder x = x.map b)
    (label : Option (List K)) (flux : List (List K)) :
    (autoPredict t d encoder model decoder label flux).1
      = flux.map fun row => k (b (match label with
          | some l => h (l ++ e (l ++ f row))
          | none => h (e (f row)))) := by
  unfold autoPredict
  cases label with
  | none => simp [ht, hd, he, hm, hb]
  | some l =>
    simp only [ht, hstack_tile, he]
    rw [show (flux.map f).length = ((List.map e (List.map (l ++ ·) (flux.map f)))).length by simp, hstack_tile]
    simp [hd, hm, hb]

/-- C107 for `DeepONet`: row by row for every non-empty flux; an empty flux raises ValueError. -/
theorem C107_deeponet {K : Type} (t : Transformer (List K)) (d : List (List K) → List (List K))
    (model : List (List K × List K) → List (List K)) (f k : List K → List K) (h : List K → List K → List K)
    (ht : ∀ x, (t x).1 = x.map f) (hd : ∀ x, d x = x.map k)
    (hm : ∀ x, model x = x.map fun r => h r.1 r.2) (label : List K) (flux : List (List K)) :
    (deepPredict t d model label flux).1
      = if flux = [] then .error .valueError else .ok (flux.map fun row => k (h (f row) label)) := by
  unfold deepPredict
  simp only [ht]
  rw [if_neg (by simp [tile]), zip_tile _ _ _ (by simp),
    C87_predict model (fun r => h r.1 r.2) hm]
  cases flux with
  | nil => simp [Except.map]
  | cons a x => simp [Except.map, hd]

/-- The hypotheses of C107 are met by elementwise transformers and an affine model. -/
example : (djinnPredict (some cubeInPlace) (some fun x => x.map (·.map (· / 2)))
    (fun x => x.map (·.map (· + 1))) (some [7]) [[1], [2]]).1 = [[4, 1], [4, 9 / 2]] := by
  rw [C107_djinn (some cubeInPlace) (some fun x => x.map (·.map (· / 2))) (fun x => x.map (·.map (· + 1)))
    (fun r => r.map (· ^ 3)) (fun r => r.map (· + 1)) (fun r => r.map (· / 2))
    (fun t h x => by cases h; rfl) (fun h => by cases h) (fun _ => rfl) (fun d h x => by cases h; rfl)
    (fun h => by cases h)]
  norm_num

example : (deepPredict cubeInPlace id (fun x => x.map fun r => r.1) [7] [[1], [2]]).1
    = .ok [[1], [8]] := by
  rw [C107_deeponet cubeInPlace id (fun x => x.map fun r => r.1) (fun r => r.map (· ^ 3)) id (fun a _ => a)
    (fun _ => rfl) (fun _ => by simp) (fun _ => rfl), if_neg (by simp)]
  norm_num

example : (autoPredict cubeInPlace id id id id (some [7]) [[2]]).1 = [[7, 7, 8]] := by
  rw [C107_autodjinn cubeInPlace id id id id (fun r => r.map (· ^ 3)) id id id id (fun _ => rfl)
    (fun _ => by simp) (fun _ => by simp) (fun _ => by simp) (fun _ => by simp)]
  norm_num

/-! ## C108: choosing the backend -/

/-- C108, what holds: with torch installed exactly the spellings of "torch" are accepted; with only TensorFlow
exactly the spellings of "tensorflow"; any other name is a ValueError; with neither package the module does not
import. -/
theorem C108_backend_partial (hasTf : Bool) (backend : String) :
    (∃ g, importModule true hasTf = .ok g ∧
      (selectBackend g backend = .ok .torch ↔ backend.toLower = "torch") ∧
      selectBackend g backend ≠ .ok .tensorflow) ∧
    (∃ g, importModule false true = .ok g ∧
      (selectBackend g backend = .ok .tensorflow ↔ backend.toLower = "tensorflow") ∧
      selectBackend g backend ≠ .ok .torch) ∧
    importModule false false = .error .importError ∧
    (∀ g, selectBackend g backend = .error .valueError ↔
      backend.toLower ≠ "tensorflow" ∧ backend.toLower ≠ "torch") := by
  refine ⟨⟨(true, false), rfl, ?_, ?_⟩, ⟨(false, true), rfl, ?_, ?_⟩, rfl, fun g => ?_⟩
  all_goals
    unfold selectBackend
    simp only
    split_ifs <;> simp_all

/-- C108 fails when both packages are installed: `backend="tensorflow"` (in any spelling) raises the ImportError
that asks the user to install TensorFlow. -/
theorem C108_violation_both_installed (backend : String) (h : backend.toLower = "tensorflow") :
    ∃ g, importModule true true = .ok g ∧ selectBackend g backend = .error .importError := by
  refine ⟨(true, false), rfl, ?_⟩
  unfold selectBackend
  simp [h]

/-- C108: on a machine with TensorFlow only, the default `backend="torch"` raises ImportError. -/
theorem C108_violation_default_tf_only :
    ∃ g, importModule false true = .ok g ∧ selectBackend g "torch" = .error .importError := by
  refine ⟨(false, true), rfl, ?_⟩
  unfold selectBackend
  have h : "torch".toLower = "torch" := by decide +kernel
  rw [h]
  simp

example : "TensorFlow".toLower = "tensorflow" := by decide +kernel

/-! ## C109: loading a list of models -/

theorem loadSeq_ok_iff {M : Type} (load : String → Except PyErr M) (paths : List PathEntry) (l : List (Entry M)) :
    loadSeq load paths = .ok l ↔
      List.Forall₂ (fun p e => match p, e with
        | .zero, .zero => True
        | .file name, .model m => load name = .ok m
        | _, _ => False) paths l := by
  induction paths generalizing l with
  | nil =>
    cases l <;> simp [loadSeq]
  | cons p paths ih =>
    cases p with
    | zero =>
      unfold loadSeq
      cases hr : loadSeq load paths with
      | error e =>
        simp only [reduceCtorEq, false_iff]
        intro h
        cases h with
        | cons h1 h2 => rw [(ih _).mpr h2] at hr; cases hr
      | ok r =>
        simp only [Except.ok.injEq]
        constructor
        · intro h; subst h; exact .cons trivial ((ih r).mp hr)
        · intro h
          cases h with
          | @cons _ e _ l' h1 h2 =>
            have := (ih _).mpr h2
            rw [hr] at this
            cases this
            cases e with
            | zero => rfl
            | model m => exact absurd h1 (by simp)
    | file name =>
      unfold loadSeq
      cases hl : load name with
      | error e =>
        simp only [reduceCtorEq, false_iff]
        intro h
        cases h with
        | @cons _ e' _ _ h1 h2 =>
          cases e' with
          | zero => simp at h1
          | model m => simp only at h1; rw [hl] at h1; cases h1
      | ok m =>
        cases hr : loadSeq load paths with
        | error e =>
          simp only [reduceCtorEq, false_iff]
          intro h
          cases h with
          | cons h1 h2 => rw [(ih _).mpr h2] at hr; cases hr
        | ok r =>
          simp only [Except.ok.injEq]
          constructor
          · intro h; subst h; exact .cons hl ((ih r).mp hr)
          · intro h
            cases h with
            | @cons _ e _ l' h1 h2 =>
              have := (ih _).mpr h2
              rw [hr] at this
              cases this
              cases e with
              | zero => exact absurd h1 (by simp)
              | model m' => simp only at h1; rw [hl] at h1; cases h1; rfl

/-- C109: a sequence of paths gives a list of the same length, with the integer 0 exactly where the path is 0
and the model loaded from the path everywhere else; the call fails exactly when some file fails to load, with
the error of the first such file. -/
theorem C109_sequence {M : Type} (load : String → Except PyErr M) (paths : List PathEntry) :
    (∀ l, loadDjinnModels load (.seq paths) = .ok (.many l) ↔
      l.length = paths.length ∧ ∀ n (hn : n < paths.length) (hn' : n < l.length),
        match paths[n], l[n] with
        | .zero, .zero => True
        | .file name, .model m => load name = .ok m
        | _, _ => False) ∧
    (∀ e, loadDjinnModels load (.seq paths) = .error e ↔
      ∃ before name after, paths = before ++ .file name :: after ∧ load name = .error e ∧
        ∀ name', PathEntry.file name' ∈ before → ∃ m, load name' = .ok m) := by
  constructor
  · intro l
    have : loadDjinnModels load (.seq paths) = .ok (.many l) ↔ loadSeq load paths = .ok l := by
      show (loadSeq load paths).map Loaded.many = _ ↔ _
      generalize loadSeq load paths = r
      cases r <;> simp [Except.map]
    rw [this, loadSeq_ok_iff, List.forall₂_iff_get]
    constructor
    · rintro ⟨h1, h2⟩
      exact ⟨h1.symm, fun n hn hn' => h2 n hn hn'⟩
    · rintro ⟨h1, h2⟩
      exact ⟨h1.symm, fun n hn hn' => h2 n hn hn'⟩
  · intro e
    have : loadDjinnModels load (.seq paths) = .error e ↔ loadSeq load paths = .error e := by
      show (loadSeq load paths).map Loaded.many = _ ↔ _
      generalize loadSeq load paths = r
      cases r <;> simp [Except.map]
    rw [this]
    clear this
    induction paths with
    | nil => simp [loadSeq]
    | cons p paths ih =>
      have ih' := ih
      cases p with
      | zero =>
        unfold loadSeq
        have h0 : (match loadSeq load paths with
            | .error e => .error e
            | .ok l => .ok (Entry.zero :: l)) = Except.error e ↔ loadSeq load paths = .error e := by
          cases loadSeq load paths <;> simp
        refine Iff.trans h0 (ih'.trans ?_)
        constructor
        · rintro ⟨b, name, a, h1, h2, h3⟩
          exact ⟨.zero :: b, name, a, by rw [h1]; rfl, h2, fun n hn => h3 n (by simpa using hn)⟩
        · rintro ⟨b, name, a, h1, h2, h3⟩
          cases b with
          | nil => simp at h1
          | cons x b =>
            simp only [List.cons_append, List.cons.injEq] at h1
            exact ⟨b, name, a, h1.2, h2, fun n hn => h3 n (List.mem_cons_of_mem _ hn)⟩
      | file nm =>
        unfold loadSeq
        cases hl : load nm with
        | error e' =>
          simp only [Except.error.injEq]
          constructor
          · intro h; exact ⟨[], nm, paths, rfl, by rw [hl, h], by simp⟩
          · rintro ⟨b, name, a, h1, h2, h3⟩
            cases b with
            | nil =>
              simp only [List.nil_append, List.cons.injEq, PathEntry.file.injEq] at h1
              rw [← h1.1, hl] at h2
              exact Except.error.inj h2
            | cons x b =>
              simp only [List.cons_append, List.cons.injEq] at h1
              obtain ⟨m, hm⟩ := h3 nm (by rw [h1.1]; simp)
              rw [hl] at hm; cases hm
        | ok m =>
          have h0 : (match loadSeq load paths with
              | .error e => .error e
              | .ok l => .ok (Entry.model m :: l)) = Except.error e ↔ loadSeq load paths = .error e := by
            cases loadSeq load paths <;> simp
          simp only
          refine Iff.trans h0 (ih'.trans ?_)
          constructor
          · rintro ⟨b, name, a, h1, h2, h3⟩
            refine ⟨.file nm :: b, name, a, by rw [h1]; rfl, h2, fun n hn => ?_⟩
            rcases List.mem_cons.mp hn with h | h
            · cases h; exact ⟨m, hl⟩
            · exact h3 n h
          · rintro ⟨b, name, a, h1, h2, h3⟩
            cases b with
            | nil =>
              simp only [List.nil_append, List.cons.injEq, PathEntry.file.injEq] at h1
              rw [← h1.1, hl] at h2; cases h2
            | cons x b =>
              simp only [List.cons_append, List.cons.injEq] at h1
              exact ⟨b, name, a, h1.2, h2, fun n hn => h3 n (List.mem_cons_of_mem _ hn)⟩

example : ∃ l : List (Entry ℕ), loadDjinnModels (fun s => .ok s.length) (.seq [.file "abc", .zero]) = .ok (.many l) ∧
    l = [.model 3, .zero] := ⟨_, rfl, rfl⟩

/-! ## C110: predicted sources are local -/

section Local

open Discrete1.Ml Discrete1.Tools

variable {K : Type} [Field K] [LinearOrder K] [IsStrictOrderedRing K]

/-- A model that predicts row by row: row `r` of the answer depends on row `r` of the input only. -/
def RowWise (f : Ml.Predict K) : Prop :=
  ∃ h : (ℕ → K) → ℕ → K, ∀ n rows, ∀ r < n, ∀ g, f n rows r g = h (rows r) g

/-- The step that writes cell `i`, evaluated: nothing but the flux of cell `i` enters, provided the flux is
non-negative. -/
theorem predicted_row (cells groups : ℕ) (flux : ℕ → ℕ → K) (xs : ℕ → ℕ → ℕ → K) (mm : ℕ → ℕ) (keff : K)
    (f : Ml.Predict K) (h : (ℕ → K) → ℕ → K) (hf : ∀ n rows, ∀ r < n, ∀ g, f n rows r g = h (rows r) g)
    (hflux : ∀ i < cells, ∀ g < groups, 0 ≤ flux i g) (i : ℕ) (hi : i < cells) (source : ℕ → ℕ → K)
    (h0 : ∀ g, source i g = 0) (g : ℕ) :
    (if blockSum groups (cellsOf cells mm (mm i)).length (rowsOf (cellsOf cells mm (mm i)) flux) = 0 then source
      else putRows (cellsOf cells mm (mm i)) (rescale groups
        (scaleOf groups xs (mm i) (rowsOf (cellsOf cells mm (mm i)) flux)) keff
        (f (cellsOf cells mm (mm i)).length (rowsOf (cellsOf cells mm (mm i)) flux))) source) i g
    = h (flux i) g / keff
      * ((∑ g' ∈ range groups, flux i g' * xs (mm i) g' 0) / ∑ g' ∈ range groups, h (flux i) g') := by
  have hmem : i ∈ cellsOf cells mm (mm i) := mem_cellsOf.mpr ⟨hi, rfl⟩
  have hlt := List.idxOf_lt_length_of_mem hmem
  split_ifs with hz
  · have hzero := blockSum_eq_zero (groups := groups) (f := rowsOf (cellsOf cells mm (mm i)) flux)
      (fun r hr g hg => by
        unfold rowsOf
        rw [List.getD_eq_getElem _ _ hr]
        exact hflux _ (mem_cellsOf.mp (List.getElem_mem hr)).1 g hg) hz
      ((cellsOf cells mm (mm i)).idxOf i) hlt
    rw [rowsOf_idxOf hmem] at hzero
    rw [h0 g, sum_eq_zero fun g' hg' => by rw [hzero g' (mem_range.mp hg'), zero_mul], zero_div, mul_zero]
  · rw [putRows_of_mem hmem]
    unfold rescale scaleOf
    rw [accum_eq_sum, accum_eq_sum, hf _ _ _ hlt, rowsOf_idxOf hmem]
    congr 2
    exact sum_congr rfl fun g' _ => by rw [hf _ _ _ hlt, rowsOf_idxOf hmem]

/-- C110, fission: with row-wise models and non-negative fluxes, the source of a cell depends only on the flux
in that cell - not on the other cells, their number, their order or their materials. -/
theorem C110_fission_partial (cells cells' groups count : ℕ) (flux flux' : ℕ → ℕ → K) (xs : ℕ → ℕ → ℕ → K)
    (mm mm' : ℕ → ℕ) (keff : K) (models : ℕ → Option (Ml.Predict K))
    (hrow : ∀ nn f, models nn = some f → RowWise f)
    (hflux : ∀ i < cells, ∀ g < groups, 0 ≤ flux i g) (hflux' : ∀ i < cells', ∀ g < groups, 0 ≤ flux' i g)
    (i j : ℕ) (hi : i < cells) (hj : j < cells') (hm : mm' j = mm i) (hsame : ∀ g, flux' j g = flux i g) (g : ℕ) :
    fissionProdPredict cells' groups count flux' xs mm' keff models j g
      = fissionProdPredict cells groups count flux xs mm keff models i g := by
  have hrowEq : flux' j = flux i := funext hsame
  rcases Nat.lt_or_ge (mm i) count with hc | hc
  · obtain ⟨s, hs0, hs⟩ := (fission_cell cells groups count flux xs mm keff models i).2 hc
    obtain ⟨s', hs0', hs'⟩ := (fission_cell cells' groups count flux' xs mm' keff models j).2 (by omega)
    rw [hs, hs']
    unfold fissionModelStep
    have hmem : i ∈ cellsOf cells mm (mm i) := mem_cellsOf.mpr ⟨hi, rfl⟩
    have hmem' : j ∈ cellsOf cells' mm' (mm' j) := mem_cellsOf.mpr ⟨hj, rfl⟩
    cases hmod : models (mm i) with
    | none =>
      rw [hm] at hmem' ⊢
      simp only [hmod]
      rw [putRows_of_mem hmem, putRows_of_mem hmem']
      unfold fissionMatProd
      simp only [getD_idxOf hmem, getD_idxOf hmem', rowsOf_idxOf hmem, rowsOf_idxOf hmem', hm, hrowEq]
    | some f =>
      obtain ⟨h, hf⟩ := hrow _ f hmod
      have e1 := predicted_row cells groups flux xs mm keff f h hf hflux i hi s hs0 g
      have e2 := predicted_row cells' groups flux' xs mm' keff f h hf hflux' j hj s' hs0' g
      rw [hm] at e2 ⊢
      simp only [hmod]
      rw [e1, e2, hrowEq]
  · rw [(fission_cell cells groups count flux xs mm keff models i).1 hc,
      (fission_cell cells' groups count flux' xs mm' keff models j).1 (by omega)]

/-- C110, scattering (with usable labels, C53). -/
theorem C110_scatter_partial (cells cells' groups count : ℕ) (flux flux' : ℕ → ℕ → K) (xs : ℕ → ℕ → ℕ → K)
    (mm mm' : ℕ → ℕ) (models : ℕ → Option (Ml.Predict K)) (label : Label) (hl : LabelsFor count label)
    (hrow : ∀ nn f, models nn = some f → RowWise f)
    (hflux : ∀ i < cells, ∀ g < groups, 0 ≤ flux i g) (hflux' : ∀ i < cells', ∀ g < groups, 0 ≤ flux' i g)
    (i j : ℕ) (hi : i < cells) (hj : j < cells') (hm : mm' j = mm i) (hsame : ∀ g, flux' j g = flux i g) :
    ∃ source source', scatterProdPredict cells groups count flux xs mm models label = .ok source ∧
      scatterProdPredict cells' groups count flux' xs mm' models label = .ok source' ∧
      ∀ g, source' j g = source i g := by
  have hrowEq : flux' j = flux i := funext hsame
  obtain ⟨source, h1, hout, hin⟩ := scatter_cells cells groups count flux xs mm models label hl
  obtain ⟨source', h1', hout', hin'⟩ := scatter_cells cells' groups count flux' xs mm' models label hl
  refine ⟨source, source', h1, h1', fun g => ?_⟩
  rcases Nat.lt_or_ge (mm i) count with hc | hc
  · obtain ⟨b, a, hb, hstep, ha⟩ := hin i hc
    obtain ⟨b', a', hb', hstep', ha'⟩ := hin' j (by omega)
    rw [scatterModelStep_ok cells groups flux xs mm models label (mm i) count hc hl] at hstep
    rw [scatterModelStep_ok cells' groups flux' xs mm' models label (mm' j) count (by omega) hl] at hstep'
    have hmem : i ∈ cellsOf cells mm (mm i) := mem_cellsOf.mpr ⟨hi, rfl⟩
    have hmem' : j ∈ cellsOf cells' mm' (mm' j) := mem_cellsOf.mpr ⟨hj, rfl⟩
    have hstep := Except.ok.inj hstep
    have hstep' := Except.ok.inj hstep'
    rw [ha, ha', ← hstep, ← hstep']
    cases hmod : models (mm i) with
    | none =>
      rw [hm] at hmem' ⊢
      simp only [hmod]
      rw [putRows_of_mem hmem, putRows_of_mem hmem']
      unfold scatterProd
      simp only [getD_idxOf hmem, getD_idxOf hmem', rowsOf_idxOf hmem, rowsOf_idxOf hmem', hm, hrowEq, hb, hb']
    | some f =>
      obtain ⟨h, hf⟩ := hrow _ f hmod
      have e1 := predicted_row cells groups flux xs mm 1 f h hf hflux i hi b hb g
      have e2 := predicted_row cells' groups flux' xs mm' 1 f h hf hflux' j hj b' hb' g
      rw [hm] at e2 ⊢
      simp only [hmod]
      rw [e1, e2, hrowEq]
  · rw [hout i g hc, hout' j g (by omega)]

/-- C110 fails for fluxes with negative entries (diamond differencing produces them): when the entries of a
material cancel, every cell of it loses its source.  Two cells of one material, a model that returns its input,
one group: the source of cell 0 depends on the flux in cell 1. -/
theorem C110_violation :
    ∃ (flux flux' : ℕ → ℕ → ℚ) (models : ℕ → Option (Ml.Predict ℚ)), (∀ nn f, models nn = some f → RowWise f) ∧
      (∀ g, flux' 0 g = flux 0 g) ∧
      fissionProdPredict 2 1 1 flux (fun _ _ _ => 1) (fun _ => 0) 1 models 0 0 = 1 ∧
      fissionProdPredict 2 1 1 flux' (fun _ _ _ => 1) (fun _ => 0) 1 models 0 0 = 0 := by
  refine ⟨fun _ _ => 1, fun i _ => if i = 0 then 1 else -1, fun _ => some fun _ rows => rows, ?_, ?_, ?_, ?_⟩
  · intro nn f h; cases h; exact ⟨fun r => r, fun _ _ _ _ _ => rfl⟩
  · intro g; simp
  · simp [fissionProdPredict, loop, fissionModelStep, blockSum, rowsOf, cellsOf, accum, putRows, rescale, scaleOf,
      List.range_succ]
    norm_num [putRows, rescale, scaleOf, rowsOf, accum, loop]
  · simp [fissionProdPredict, loop, fissionModelStep, blockSum, rowsOf, cellsOf, accum, putRows, rescale, scaleOf,
      List.range_succ]

example := C110_fission_partial 3 2 2 1 (fun i g => (i : ℚ) + g) (fun i g => 2 * (i : ℚ) + g)
  (fun _ _ _ => 1) (fun _ => 0) (fun _ => 0) 1 (fun _ => some fun _ rows r g => rows r g + 1)
  (fun nn f h => by cases h; exact ⟨fun r g => r g + 1, fun _ _ _ _ _ => rfl⟩)
  (fun _ _ _ _ => by positivity) (fun _ _ _ _ => by positivity) 2 1 (by norm_num) (by norm_num) rfl
  (fun g => by norm_num) 0

example := C110_scatter_partial 3 2 2 1 (fun i g => (i : ℚ) + g) (fun i g => 2 * (i : ℚ) + g)
  (fun _ _ _ => 1) (fun _ => 0) (fun _ => 0) (fun _ => some fun _ rows r g => rows r g + 1) .one trivial
  (fun nn f h => by cases h; exact ⟨fun r g => r g + 1, fun _ _ _ _ _ => rfl⟩)
  (fun _ _ _ _ => by positivity) (fun _ _ _ _ => by positivity) 2 1 (by norm_num) (by norm_num) rfl
  (fun g => by norm_num)

end Local

end Discrete1.Props
