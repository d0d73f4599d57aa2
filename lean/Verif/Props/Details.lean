import Verif.Props.Auto
import Verif.Props.Predict
import Verif.Props.Critical
import Verif.Props.Datasets
import Verif.Props.Setup
import Verif.Props.MlSource

/-!
# Refinements of C49, C53, C54, C60, C107 and C112

Each theorem below was added because a deliberately wrong program (see `seeded/LOG.jsonl`) got past the
theorems of the other files.
-/

set_option linter.unusedSectionVars false
set_option linter.unusedSimpArgs false

namespace Discrete1.Props

open Finset Discrete1.Spec Discrete1.Slab Discrete1.Tools Discrete1.MultiGroup Discrete1.Drivers
open Discrete1.Critical Discrete1.Ml Discrete1.Auto Discrete1.Setup Discrete1.Hybrid Discrete1.Predict

section Generic
variable {K : Type} [Field K] [LinearOrder K] [IsStrictOrderedRing K]

/-! ## C112 -/

/-- C112: on the full energy grid with vector fission data, the uncollided problem uses `chi_u` and the
collided problem `chi_c`, each with the caller's `nusigf`. -/
theorem C112_each_its_spectrum (second : Bool) (p : Problem K) (bc : BcX) (gauss : ℕ → List (K × K))
    (convC : (ℕ → ℕ → K) → (ℕ → ℕ → K) → Bool) (M : ℕ) (xsTotal : ℕ → ℕ → K)
    (scatter : ℕ → ℕ → ℕ → K) (nusigf chiU chiC : ℕ → ℕ → K)
    (velocity : ℕ → K) (external boundary : TimeArr K) (grid : EnergyGrid K) (steps : ℕ) (dt : K)
    (init : ℕ → ℕ → ℕ → K) (hgrid : GridFor p.groups p.groups grid) :
    ∃ (coarse : ℕ → ℕ) (factor : ℕ → K), (∀ g < p.groups, coarse g = g ∧ factor g = 1) ∧
      autoBdf second p bc gauss convC M xsTotal scatter (.vector nusigf) velocity external boundary p.angles
        p.groups grid steps dt (some chiU) (some chiC) init =
      hybridRun second p p xsTotal xsTotal (.iso scatter) (.iso scatter) (.vector chiU nusigf)
        (.vector chiC nusigf) velocity velocity external boundary coarse factor steps dt init := by
  have hC := hgrid.coarse
  have hfull := hgrid.number
  refine ⟨(indexing grid.coarseGroups grid.edges grid.gidxU grid.gidxC).2.1,
    (indexing grid.coarseGroups grid.edges grid.gidxU grid.gidxC).2.2, fun g hg => ?_, ?_⟩
  · have hid : ∀ c ≤ p.groups, grid.gidxC c = c := partition_full (hfull ▸ hC)
    have hin : InBlock grid.gidxC g g := ⟨(hid g hg.le).le, by rw [hid (g + 1) hg]; omega⟩
    obtain ⟨N, hE, hF⟩ := hgrid.increasing
    constructor
    · exact ((C02_collided_index hC hg).2 g (by omega) hin).symm
    · rw [C03_factor_value (N := N) hC (by omega) hin, hid g hg.le, hid (g + 1) hg]
      exact div_self (sub_pos.mpr (increasing_comp hE hF g hg)).ne'
  · simp only [autoBdf, collidedData, if_true, fissionArg, collidedAngles]

/-! ## C107 -/

/-- C107 for `DeepONet`: a transformer that returns another number of rows than it got - more or fewer -
makes `predict` raise AssertionError. -/
theorem C107_deeponet_row_count {T : Type} (t : Transformer (List T)) (d : List (List T) → List (List T))
    (model : List (List T × List T) → List (List T)) (label : List T) (flux : List (List T))
    (h : (t flux).1.length ≠ flux.length) :
    (deepPredict t d model label flux).1 = .error .assertion := by
  unfold deepPredict
  simp only [tile, List.length_replicate]
  rw [if_pos h]

/-! ## C54 -/

/-- C54: with fission models, every pass of `ml_power_iteration` takes as `keff` the norm of the flux that the
source iteration of that same pass returned, and as flux that flux divided by it; the source is the predicted
one, without `1/keff`. -/
theorem C54_fission_model_pass (p : Problem K) (norm : (ℕ → ℕ → K) → K)
    (convMl : (ℕ → ℕ → K) → (ℕ → ℕ → K) → Bool) (xsTotal : ℕ → ℕ → K) (scatter fission : ℕ → ℕ → ℕ → K)
    (nF nS : ℕ) (fm sm : ℕ → Option (Ml.Predict K)) (label : Ml.Label) (hn : 0 < nF) (s s' : KState K)
    (h : mlStep p norm convMl xsTotal scatter (.matrix fission) nF fm nS sm label s = .ok s') :
    ∃ (source : Arr3 K) (flux : ℕ → ℕ → K),
      (∀ i n, ∀ g < p.groups, sourceAt source i n g
        = Ml.fissionProdPredict p.cells p.groups nF s.flux fission p.mm 1 fm i g) ∧
      (if nS = 0 then sourceIteration p xsTotal (.iso scatter) source ⟨1, 1, fun _ _ _ => 0⟩ s.flux
        else Ml.mlSourceIteration p convMl xsTotal scatter source ⟨1, 1, fun _ _ _ => 0⟩ nS sm label s.flux)
        = .ok flux ∧
      s'.keff = norm flux ∧ ∀ i g, s'.flux i g = flux i g / s'.keff := by
  unfold mlStep at h
  rw [if_neg (by omega)] at h
  simp only [if_neg (show ¬ nF = 0 by omega)] at h
  refine ⟨⟨1, p.groups, fun i _ g =>
    Ml.fissionProdPredict p.cells p.groups nF s.flux fission p.mm 1 fm i g⟩, ?_⟩
  split at h
  · cases h
  · next flux hf =>
    refine ⟨flux, fun i n g hg => ?_, hf, ?_⟩
    · show Ml.fissionProdPredict p.cells p.groups nF s.flux fission p.mm 1 fm i (bidx p.groups g) = _
      rw [bidx_full _ _ hg]
    · cases h
      exact ⟨rfl, fun i g => rfl⟩

/-! ## C49 -/

/-- The hydride density factors: uranium at `rho_UH3 / rho_U` times its mass fraction in UH3. -/
def uraniumShare (c : HydrideConst K) (e : K) : K :=
  c.hydrideRho / c.uraniumRho *
    ((e * c.u235 + (1 - e) * c.u238) / (e * c.u235 + (1 - e) * c.u238 + 3 * c.h1))

/-- Three hydrogen atoms per formula unit. -/
def hydrogenDensity (c : HydrideConst K) (e : K) : K :=
  3 * (c.hydrideRho * c.avogadroBarns / (e * c.u235 + (1 - e) * c.u238 + 3 * c.h1))

/-- C49 (what the code would compute if the data files could be read): uranium hydride of enrichment `e` is
enriched uranium of the same enrichment, thinned to its partial density, plus three hydrogen atoms per formula
unit. -/
theorem C49_hydride_partial (load : List Char → Except PyErr (Xs K)) (parse : List Char → Option K)
    (c : HydrideConst K) (e : K) (a b h : Xs K) (text : List Char)
    (htext : '%' ∉ text) (hdash : '-' ∉ text) (hp : parse text = some (100 * e))
    (ha : load "uranium-235".toList = .ok a) (hb : load "uranium-238".toList = .ok b)
    (hh : load "hydrogen".toList = .ok h) :
    ∃ x : Xs K, materialsWith load parse c ["uranium-hydride".toList ++ "-%".toList ++ text ++ "%".toList]
        = .ok [x] ∧
      (∀ g, x.total g = uraniumShare c e * (e * a.total g + (1 - e) * b.total g)
        + hydrogenDensity c e * h.total g) ∧
      (∀ g k, x.scatter g k = uraniumShare c e * (e * a.scatter g k + (1 - e) * b.scatter g k)
        + hydrogenDensity c e * h.scatter g k) ∧
      ∀ g k, x.fission g k = uraniumShare c e * (e * a.fission g k + (1 - e) * b.fission g k)
        + hydrogenDensity c e * h.fission g k := by
  have htail : splitPercent (text ++ ['%']) = [text ++ ['%']] := by
    clear hp
    induction text with
    | nil => rfl
    | cons y t ih =>
      simp only [List.mem_cons, not_or] at htext hdash
      have h2 := ih htext.2 hdash.2
      rw [List.cons_append, splitPercent, h2]
      intro rest h
      exact absurd h.symm hdash.1
  have hstrip : stripPercent (text ++ ['%']) = text := by
    have hd : ∀ l : List Char, '%' ∉ l → l.dropWhile (· = '%') = l := by
      intro l hl
      cases l with
      | nil => rfl
      | cons y t =>
        have : ¬ y = '%' := fun h => hl (by simp [h])
        simp [List.dropWhile_cons, this]
    unfold stripPercent
    cases text with
    | nil => rfl
    | cons y t =>
      have hy : ¬ y = '%' := fun h => htext (by simp [h])
      rw [List.cons_append, List.dropWhile_cons_of_neg (by simpa using hy), ← List.cons_append,
        List.reverse_append, List.reverse_cons (a := '%'), List.reverse_nil, List.nil_append,
        List.singleton_append, List.dropWhile_cons_of_pos (by simp),
        hd _ (by rw [List.mem_reverse]; exact htext), List.reverse_reverse]
  have hsp : splitPercent ("uranium-hydride".toList ++ "-%".toList ++ text ++ "%".toList)
      = ["uranium-hydride".toList, text ++ ['%']] := by
    have h1 := splitPercent_base "hydride".toList (text ++ ['%']) (by decide)
    rw [htail] at h1
    have e1 : "uranium-hydride".toList ++ "-%".toList ++ text ++ "%".toList
        = 'u' :: 'r' :: 'a' :: 'n' :: 'i' :: 'u' :: 'm' :: '-' ::
          ("hydride".toList ++ '-' :: '%' :: (text ++ ['%'])) := by simp
    have e2 : splitPercent ('-' :: ("hydride".toList ++ '-' :: '%' :: (text ++ ['%'])))
        = ['-' :: "hydride".toList, text ++ ['%']] := by
      rw [splitPercent, h1]
      intro rest hr
      simp
    rw [e1]
    have hc : ∀ (x : Char) (rest h0 : List Char) (t : List (List Char)), x ≠ '-' → splitPercent rest = h0 :: t →
        splitPercent (x :: rest) = (x :: h0) :: t := by
      intro x rest h0 t hx hr
      rw [splitPercent, hr]
      intro r he
      exact absurd he hx
    exact hc _ _ _ _ (by decide) (hc _ _ _ _ (by decide) (hc _ _ _ _ (by decide) (hc _ _ _ _ (by decide)
      (hc _ _ _ _ (by decide) (hc _ _ _ _ (by decide) (hc _ _ _ _ (by decide) e2))))))
  have hmem : '%' ∈ "uranium-hydride".toList ++ "-%".toList ++ text ++ "%".toList := by simp
  refine ⟨hydrideXs c e a b h, ?_, ?_, ?_, ?_⟩
  · unfold materialsWith
    rw [if_pos (by rw [hsp]; simp [knownNames, enrichmentNames])]
    unfold generateCrossSection
    simp only [hmem, if_true, hsp, hstrip, hp]
    rw [if_neg (by decide), if_neg (by decide), if_neg (by decide), if_neg (by decide)]
    simp only [if_true, ha, hb, hh, materialsWith]
    rw [mul_div_cancel_left₀ e (by norm_num : (100 : K) ≠ 0)]
  · intro g; simp only [hydrideXs, uraniumShare, hydrogenDensity]; ring
  · intro g k; simp only [hydrideXs, uraniumShare, hydrogenDensity]; ring
  · intro g k; simp only [hydrideXs, uraniumShare, hydrogenDensity]; ring

/-- C49 (what the code would compute if the data files could be read): the plain names of the table - ten data files
and vacuum - are all accepted; a list of plain names gives their data in order. -/
theorem C49_plain_names_partial (load : List Char → Except PyErr (Xs K)) (parse : List Char → Option K)
    (c : HydrideConst K) (data : List Char → Xs K) (names : List (List Char))
    (hload : ∀ n ∈ names, n ≠ "vacuum".toList → load n = .ok (data n))
    (hvac : data "vacuum".toList = ⟨fun _ => 0, fun _ _ => 0, fun _ _ => 0⟩)
    (hn : ∀ n ∈ names, n ∈ ["stainless-steel-440".toList, "hydrogen".toList, "high-density-polyethyene-618".toList,
      "high-density-polyethyene-087".toList, "carbon".toList, "uranium-235".toList, "uranium-238".toList,
      "water-uranium-dioxide".toList, "plutonium-239".toList, "plutonium-240".toList, "vacuum".toList]) :
    materialsWith load parse c names = .ok (names.map data) := by
  induction names with
  | nil => rfl
  | cons n rest ih =>
    have ih := ih (fun m hm => hload m (List.mem_cons_of_mem _ hm)) (fun m hm => hn m (List.mem_cons_of_mem _ hm))
    have hl := hload n List.mem_cons_self
    have hn := hn n List.mem_cons_self
    have hk : (splitPercent n).headD [] ∈ knownNames ∧ '%' ∉ n ∧ (n ∈ nonEnrichment) := by
      simp only [List.mem_cons, List.not_mem_nil, or_false] at hn
      rcases hn with rfl | rfl | rfl | rfl | rfl | rfl | rfl | rfl | rfl | rfl | rfl <;> decide
    have hg : generateCrossSection load parse c n = .ok (data n) := by
      unfold generateCrossSection
      simp only [if_neg hk.2.1]
      by_cases hv : n = "vacuum".toList
      · rw [if_pos hv, hv, hvac]
      · rw [if_neg hv, if_pos hk.2.2, hl hv]
    unfold materialsWith
    rw [if_pos hk.1, hg, ih]
    rfl

example := C49_plain_names_partial (K := ℚ)
  (fun n => .ok ⟨fun _ => n.length, fun _ _ => 1, fun _ _ => 0⟩) (fun _ => none) ⟨235, 238, 1, 11, 19, 3 / 5⟩
  (fun n => if n = "vacuum".toList then ⟨fun _ => 0, fun _ _ => 0, fun _ _ => 0⟩
    else ⟨fun _ => n.length, fun _ _ => 1, fun _ _ => 0⟩)
  ["carbon".toList, "vacuum".toList, "plutonium-240".toList] (fun n _ h => by rw [if_neg h]) (by rw [if_pos rfl])
  (by decide)

/-! ## C53 -/

/-- C53: a label list that is too short for the models raises IndexError as soon as the first material without
a label carries flux. -/
theorem C53_short_labels (cells groups count n : ℕ) (flux : ℕ → ℕ → K) (xs : ℕ → ℕ → ℕ → K) (mm : ℕ → ℕ)
    (models : ℕ → Option (Ml.Predict K)) (f : Ml.Predict K) (hn : n < count) (hf : models n = some f)
    (hflux : ∀ i < cells, ∀ g < groups, 0 ≤ flux i g)
    (hpos : ∃ i < cells, mm i = n ∧ ∃ g < groups, flux i g ≠ 0) :
    scatterProdPredict cells groups count flux xs mm models (.perMaterial n) = .error .indexError := by
  have hall : ∀ nn < count, ∀ (s : ℕ → ℕ → K) e,
      scatterModelStep cells groups flux xs mm models (.perMaterial n) nn s = .error e → e = .indexError := by
    intro nn _ s e h
    unfold scatterModelStep at h
    split at h
    · cases h
    · dsimp only at h
      split_ifs at h
      · cases h; rfl
  have hloop : loopE count (scatterModelStep cells groups flux xs mm models (.perMaterial n)) (fun _ _ => 0)
      = .error .indexError := by
    refine loopE_error count _ _ _ hall n hn fun s => ?_
    unfold scatterModelStep
    rw [hf]
    dsimp only
    rw [if_neg, if_pos (by simp)]
    intro hz
    obtain ⟨i, hi, hm, g, hg, hne⟩ := hpos
    have hmem : i ∈ cellsOf cells mm n := mem_cellsOf.mpr ⟨hi, hm⟩
    have hzero := blockSum_eq_zero (groups := groups) (f := rowsOf (cellsOf cells mm n) flux)
      (fun r hr g hg => by
        unfold rowsOf
        rw [List.getD_eq_getElem _ _ hr]
        exact hflux _ (mem_cellsOf.mp (List.getElem_mem hr)).1 g hg) hz
      ((cellsOf cells mm n).idxOf i) (List.idxOf_lt_length_of_mem hmem)
    rw [rowsOf_idxOf hmem] at hzero
    exact hne (hzero g hg)
  unfold scatterProdPredict
  cases n with
  | zero => rfl
  | succ n => exact hloop

end Generic

/-! ## C60 -/

/-- `str.replace` does not depend on the fuel once it covers the string. -/
theorem pyReplace_fuel (old new : List Char) (hold : old ≠ []) : ∀ (k l : ℕ) (s : List Char), s.length ≤ k →
    s.length ≤ l → pyReplace old new k s = pyReplace old new l s := by
  intro k
  induction k with
  | zero =>
    intro l s hk _
    have : s = [] := List.length_eq_zero_iff.mp (by omega)
    subst this
    cases l <;> rfl
  | succ k ih =>
    intro l s hk hl
    cases s with
    | nil => cases l <;> rfl
    | cons c s =>
      cases l with
      | zero => simp at hl
      | succ l =>
        simp only [List.length_cons] at hk hl
        have hpos : 0 < old.length := List.length_pos_iff.mpr hold
        have hd : ((c :: s).drop old.length).length ≤ s.length := by
          rw [List.length_drop, List.length_cons]; omega
        simp only [pyReplace]
        rw [ih l s (by omega) (by omega), ih l ((c :: s).drop old.length) (by omega) (by omega)]

/-- C60: the companion name replaces *every* "memmap": up to and including the first occurrence it is the
prefix followed by "pickle", and the rest of the name is treated the same way; a name without "memmap" is its
own companion.  (The two cases determine the companion name of every string.) -/
theorem C60_companion_name (a b : List Char) :
    (¬ Occurs "memmap".toList a → pickleName a = a) ∧
    ((∀ pre post, a ++ "memmap".toList = pre ++ "memmap".toList ++ post → post = []) →
      pickleName (a ++ "memmap".toList ++ b) = a ++ "pickle".toList ++ pickleName b) := by
  constructor
  · intro h
    by_contra hc
    exact h ((pickleName_ne_iff a).mp hc)
  · intro hfirst
    unfold pickleName
    induction a with
    | nil =>
      rw [List.nil_append, List.nil_append]
      have e : ("memmap".toList ++ b).length = 5 + b.length + 1 := by simp; omega
      rw [e]
      have hpre : "memmap".toList.isPrefixOf ("memmap".toList ++ b) = true := by simp
      have hform : "memmap".toList ++ b = 'm' :: ("emmap".toList ++ b) := rfl
      rw [hform] at hpre ⊢
      rw [pyReplace, if_pos hpre]
      have hd : ('m' :: ("emmap".toList ++ b)).drop "memmap".toList.length = b := rfl
      rw [hd, pyReplace_fuel _ _ (by decide) (5 + b.length) b.length b (by omega) le_rfl]
    | cons c a ih =>
      have hlen : (c :: a ++ "memmap".toList ++ b).length = (a ++ "memmap".toList ++ b).length + 1 := by simp
      rw [hlen]
      rw [List.cons_append, List.cons_append, pyReplace, if_neg, ih, List.cons_append, List.cons_append]
      · intro pre post h
        refine hfirst (c :: pre) post ?_
        rw [List.cons_append, h]; simp
      · intro hp
        have hp : "memmap".toList <+: c :: (a ++ "memmap".toList ++ b) := List.isPrefixOf_iff_prefix.mp hp
        have h1 : "memmap".toList <+: c :: (a ++ "memmap".toList) := by
          refine List.prefix_of_prefix_length_le hp ⟨b, by simp⟩ (by simp)
        obtain ⟨post, hpost⟩ := h1
        have := hfirst [] post (by rw [List.nil_append, hpost]; simp)
        subst this
        have := congrArg List.length hpost
        simp at this

/-! ### Examples -/

-- two different spectra on the full grid
example := C112_each_its_spectrum true exFine (.list 0 0) (fun _ => []) (fun _ _ => false) 2 exTotal
  (fun _ _ _ => 0) (fun _ _ => 1) (fun _ _ => 1 / 2) (fun _ g => if g = 0 then 1 else 0) (fun _ => 1) exExternal
  exBoundary exAutoFull 3 (1 / 10) (fun _ _ _ => 0) exAutoFullFor

-- a transformer that doubles the rows, one that drops one
example : ((fun x : List (List ℚ) => (x ++ x, x)) [[1], [2]]).1.length ≠ [[(1 : ℚ)], [2]].length ∧
    ((fun x : List (List ℚ) => (x.tail, x)) [[1], [2]]).1.length ≠ [[(1 : ℚ)], [2]].length := by decide

-- a pass with one fission model completes on the example slab
example : ∃ s', mlStep exProblem (fun f => |f 0 0|) (fun _ _ => true) exTotal (fun _ _ _ => 1)
    (.matrix fun _ _ _ => 1) 1 (fun _ => some fun _ _ _ _ => 1) 0 (fun _ => none) .one ⟨fun _ _ => 1, 1⟩
    = .ok s' :=
  mlStep_ok exProblem _ _ exTotal _ _ 1 _ _ .one (fun g _ => exOk g) _

-- a loader with data for the three nuclides
example : ∃ x : Xs ℚ, materialsWith (fun _ => .ok ⟨fun _ => 2, fun _ _ => 1, fun _ _ => 1⟩) (fun _ => some 20)
    ⟨235, 238, 1, 11, 19, 6⟩ ["uranium-hydride".toList ++ "-%".toList ++ "20".toList ++ "%".toList] = .ok [x] := by
  obtain ⟨x, h, _⟩ := C49_hydride_partial (fun _ => .ok ⟨fun _ => (2 : ℚ), fun _ _ => 1, fun _ _ => 1⟩)
    (fun _ => some 20) ⟨235, 238, 1, 11, 19, 6⟩ (1 / 5) _ _ _ "20".toList (by decide) (by decide) (by norm_num)
    rfl rfl rfl
  exact ⟨x, h⟩

-- two materials with models, one label
example : scatterProdPredict 2 1 2 (fun _ _ => (1 : ℚ)) (fun _ _ _ => 1) id (fun _ => some fun _ _ _ _ => 1)
    (.perMaterial 1) = .error .indexError :=
  C53_short_labels 2 1 2 1 _ _ id _ _ (by norm_num) rfl (fun _ _ _ _ => by norm_num)
    ⟨1, by norm_num, rfl, 0, by norm_num, by norm_num⟩

-- a name with two occurrences
example : pickleName "memmap/a-memmap.npy".toList = "pickle/a-pickle.npy".toList := by decide

end Discrete1.Props
