import Verif.Model.Variable
import Verif.Props.HybridTime
import Verif.Props.OneMoment

/-! # C124: `multi_group.variable_source_iteration` -/

set_option linter.unusedSectionVars false
set_option linter.unusedSimpArgs false

namespace Discrete1.Props

open Finset Discrete1.Tools Discrete1.Spec Discrete1.Slab Discrete1.MultiGroup Discrete1.Drivers

variable {K : Type} [Field K] [LinearOrder K] [IsStrictOrderedRing K]

/-- The average of a per-group quantity over the fine groups `e c, ..., e (c+1) - 1`, weighted with the
widths of the fine groups. -/
def widthAverage (edges : ℕ → K) (e : ℕ → ℕ) (x : ℕ → K) (c : ℕ) : K :=
  (∑ g ∈ Ico (e c) (e (c + 1)), x g * (edges (g + 1) - edges g)) / (edges (e (c + 1)) - edges (e c))

/-- Transfer from coarse group `b` to coarse group `a`: summed over the outgoing fine groups, averaged over
the incoming ones. -/
def coarseTransfer (edges : ℕ → K) (e : ℕ → ℕ) (xs : ℕ → ℕ → K) (a b : ℕ) : K :=
  ∑ og ∈ Ico (e a) (e (a + 1)), widthAverage edges e (xs og) b

/-- The scattering data on the coarse grid, moment by moment. -/
def coarseScatter (edges : ℕ → K) (e : ℕ → ℕ) : Scatter K → Scatter K
  | .iso xs => .iso fun m => coarseTransfer edges e (xs m)
  | .aniso L xs => .aniso L fun m a b l => coarseTransfer edges e (fun o i => xs m o i l) a b

theorem coarseTransfer_eq (edges : ℕ → K) (e : ℕ → ℕ) (xs : ℕ → ℕ → ℕ → K) :
    Hybrid.xsMatrixCoarsen (some xs) edges e = some fun m => coarseTransfer edges e (xs m) := by
  unfold Hybrid.xsMatrixCoarsen coarseTransfer widthAverage
  simp only [Option.map_some, Option.some.injEq]
  funext m a b
  rw [← Finset.sum_div]
  rfl

/-- C124: `variable_source_iteration` is, for isotropic and anisotropic scattering, in every geometry and for
every partition of the energy grid, the ordinary `source_iteration` on data averaged over the coarse groups
(every moment of the scattering matrix separately), with the time coefficient added to the total cross
section: same exceptions, same iterates, same result. -/
theorem C124_coarsened (p : Problem K) (xsTotal : ℕ → ℕ → K) (star : ℕ → K) (xs : Scatter K)
    (external boundary : Arr3 K) (edges : ℕ → K) (e : ℕ → ℕ) (guess : ℕ → ℕ → K) :
    variableSourceIterationCall p xsTotal star xs external boundary
        (fun c => edges (e (c + 1)) - edges (e c)) (fun g => edges (g + 1) - edges g) e guess
      = sourceIteration p (fun m c => widthAverage edges e (xsTotal m) c + star c) (coarseScatter edges e xs)
        external boundary guess := by
  cases xs with
  | iso xs =>
    exact C40_variable_source_iteration p xsTotal star xs _ external boundary edges e guess
      (coarseTransfer_eq edges e xs)
  | aniso L xs =>
    unfold variableSourceIterationCall variableSourceIterationAniso sourceIteration coarseScatter
    simp only
    unfold sourceIterationAniso
    congr 1
    funext old
    unfold oneSweepAniso
    refine loopE_congr _ _ _ _ fun gg hg flux => ?_
    unfold varGroupStepAniso groupStepAniso
    simp only
    have h0 := varOffScatter_eq p.groups flux old p.mm (fun m o i => xs m o i 0) edges e hg _
      (coarseTransfer_eq edges e fun m o i => xs m o i 0)
    have h1 : ∀ l m, varScatterC (fun m o i => xs m o i l) (Hybrid.diff edges) (Hybrid.diffIdx edges e) e gg m
        = coarseTransfer edges e (fun o i => xs m o i l) gg gg := by
      intro l m
      unfold varScatterC coarseTransfer widthAverage
      rw [← Finset.sum_div]
      rfl
    have h2 : (fun c => edges (e (c + 1)) - edges (e c)) = Hybrid.diffIdx edges e := rfl
    have h3 : (fun g => edges (g + 1) - edges g) = Hybrid.diff edges := rfl
    rw [h2, h3, h0]
    simp only [h1]
    rfl

/-- C124 on the full grid: with one fine group per coarse group (and positive widths) nothing is averaged. -/
theorem C124_full_grid (p : Problem K) (xsTotal : ℕ → ℕ → K) (star : ℕ → K) (xs : Scatter K)
    (external boundary : Arr3 K) (edges : ℕ → K) (hedges : ∀ g, edges g < edges (g + 1)) (guess : ℕ → ℕ → K) :
    variableSourceIterationCall p xsTotal star xs external boundary
        (fun g => edges (g + 1) - edges g) (fun g => edges (g + 1) - edges g) id guess
      = sourceIteration p (fun m g => xsTotal m g + star g) xs external boundary guess := by
  have h := C124_coarsened p xsTotal star xs external boundary edges id guess
  simp only [id] at h
  have ha : ∀ (x : ℕ → K) (c : ℕ), widthAverage edges id x c = x c := by
    intro x c
    unfold widthAverage
    have : Ico (id c) (id (c + 1)) = {c} := by ext; simp [id]
    rw [this, sum_singleton]
    exact mul_div_cancel_right₀ _ (sub_ne_zero.mpr (hedges c).ne')
  have ht : ∀ (x : ℕ → ℕ → K) (a b : ℕ), coarseTransfer edges id x a b = x a b := by
    intro x a b
    unfold coarseTransfer
    have : Ico (id a) (id (a + 1)) = {a} := by ext; simp [id]
    rw [this, sum_singleton, ha]
  have hs : coarseScatter edges id xs = xs := by
    cases xs <;> simp only [coarseScatter, Scatter.iso.injEq, Scatter.aniso.injEq, true_and] <;>
      (funext m a b; first | exact ht _ _ _ | (funext l; exact ht _ _ _))
  rw [hs] at h
  simp only [ha] at h
  exact h

/-- C124, one moment: the anisotropic branch with a single Legendre moment is the isotropic branch. -/
theorem C124_one_moment (p : Problem K) (xsTotal : ℕ → ℕ → K) (star : ℕ → K) (xs : ℕ → ℕ → ℕ → ℕ → K)
    (external boundary : Arr3 K) (edges : ℕ → K) (e : ℕ → ℕ) (guess : ℕ → ℕ → K) :
    variableSourceIterationCall p xsTotal star (.aniso 1 xs) external boundary
        (fun c => edges (e (c + 1)) - edges (e c)) (fun g => edges (g + 1) - edges g) e guess
      = variableSourceIterationCall p xsTotal star (.iso fun m o i => xs m o i 0) external boundary
        (fun c => edges (e (c + 1)) - edges (e c)) (fun g => edges (g + 1) - edges g) e guess := by
  rw [C124_coarsened, C124_coarsened]
  exact C70_one_moment p _ _ external boundary guess

/-! Example: two fine groups collapsed into one, two moments; the call returns a flux. -/
example : ∃ f, variableSourceIterationCall exCoarse exTotal (fun _ => (1 / 10 : ℚ))
    (.aniso 2 fun _ g g' l => ((g + g' + l : ℕ) : ℚ) / 50) ⟨1, 1, fun _ _ _ => 1⟩ ⟨1, 1, fun _ _ _ => 0⟩
    (fun c => (fun g : ℕ => (g : ℚ)) ((fun c => 2 * c) (c + 1)) - (fun g : ℕ => (g : ℚ)) ((fun c => 2 * c) c))
    (fun g => (fun g : ℕ => (g : ℚ)) (g + 1) - (fun g : ℕ => (g : ℚ)) g) (fun c => 2 * c) (fun _ _ => 0)
      = .ok f := by
  rw [C124_coarsened exCoarse exTotal (fun _ => 1 / 10) _ ⟨1, 1, fun _ _ _ => 1⟩ ⟨1, 1, fun _ _ _ => 0⟩
    (fun g : ℕ => (g : ℚ)) (fun c => 2 * c)]
  obtain ⟨x, s, _, _, _, _, h, _⟩ := C21_source_iteration_stops_aniso exCoarse 2
    (fun m c => widthAverage (fun g : ℕ => (g : ℚ)) (fun c => 2 * c) (exTotal m) c + 1 / 10)
    (fun m a b l => coarseTransfer (fun g : ℕ => (g : ℚ)) (fun c => 2 * c)
      (fun o i => ((o + i + l : ℕ) : ℚ) / 50) a b)
    ⟨1, 1, fun _ _ _ => 1⟩ ⟨1, 1, fun _ _ _ => 0⟩ (fun _ _ => 0) (fun c hc => exCoarseOk _ c fun m => by
      have hc : c < 1 := hc
      obtain rfl : c = 0 := by omega
      simp only [widthAverage, exTotal, sum_Ico_eq_sum_range, sum_range_succ, sum_range_zero]
      norm_num [sum_range_succ]
      positivity)
  exact ⟨_, h⟩

end Discrete1.Props
