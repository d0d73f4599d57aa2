import Verif.Model.Basic
import Mathlib.Analysis.Real.Sqrt

/-!
# Model of `ml/tools.py`: training data, normalisation, error metrics, file names
-/

namespace Discrete1.Ml

variable {K : Type*} [Field K] [LinearOrder K]

/-! ### combine_flux_reaction -/

/-- One training row: the label, the flux and the reaction rate of one cell in one iteration (ml/tools.py:21-73). -/
structure Row (K : Type*) where
  label : K
  flux : ℕ → K
  rate : ℕ → K

/-- The array `data` (tools.py:56-67) as a function of the iteration and the cell:
`flux[cc, ii] @ xs_matrix[mat].T`. -/
def dataRow (groups : ℕ) (flux : ℕ → ℕ → ℕ → K) (xs : ℕ → ℕ → ℕ → K) (mm : ℕ → ℕ) (labels : ℕ → K)
    (cc ii : ℕ) : Row K :=
  ⟨labels ii, flux cc ii, fun h => accum groups fun g => flux cc ii g * xs (mm ii) h g⟩

/-- `np.sum(data[..., 1:], axis=(0, 2))` (tools.py:71) for one row. -/
def rowSum (groups : ℕ) (r : Row K) : K := accum groups fun g => r.flux g + r.rate g

/-- `combine_flux_reaction` (tools.py:21-73).  After `reshape` row `k` is iteration `k / cells_x`, cell
`k % cells_x`; `np.argwhere` lists the kept rows in increasing order. -/
def combineFluxReaction (iterations cells groups : ℕ) (flux : ℕ → ℕ → ℕ → K) (xs : ℕ → ℕ → ℕ → K)
    (mm : ℕ → ℕ) (labels : ℕ → K) : List (Row K) :=
  ((List.range (iterations * cells)).filter fun k =>
      decide (rowSum groups (dataRow groups flux xs mm labels (k / cells) (k % cells)) ≠ 0)).map
    fun k => dataRow groups flux xs mm labels (k / cells) (k % cells)

/-! ### _split_by_material -/

/-- The files written: `np.save(path + f"{xs}_{name}_training_data", split_data)`, later writes replacing
earlier ones of the same name (ml/tools.py:123). -/
abbrev Files (N R : Type*) := N → Option (List R)

/-- One pass of the loop (tools.py:110-122): counter and files. -/
def splitStep {N R L : Type*} [DecidableEq N] [DecidableEq L] (label : R → L) (rows : List R)
    (st : ℕ × Files N R) (split : N × List L) : ℕ × Files N R :=
  let sel := rows.filter fun r => decide (label r ∈ split.2)
  if sel.length = 0 then st
  else (st.1 + sel.length, Function.update st.2 split.1 (some sel))

/-- `_split_by_material` (tools.py:76-125): the files and the final assertion.  The files are written even if
the assertion fails. -/
def splitByMaterial {N R L : Type*} [DecidableEq N] [DecidableEq L] (label : R → L) (rows : List R)
    (splits : List (N × List L)) (before : Files N R) : Files N R × Except PyErr Unit :=
  let st := splits.foldl (splitStep label rows) (0, before)
  (st.2, if st.1 = rows.length then .ok () else .error .assertion)

/-! ### min_max_normalization -/

/-- `np.max(data, axis=1)` of one row of `n + 1` entries (ml/tools.py:236). -/
def rowMax (n : ℕ) (x : ℕ → K) : K := loop n (fun i m => max m (x (i + 1))) (x 0)

/-- `np.min(data, axis=1)` (ml/tools.py:237). -/
def rowMin (n : ℕ) (x : ℕ → K) : K := loop n (fun i m => min m (x (i + 1))) (x 0)

/-- `min_max_normalization` (tools.py:215-245) for finite data and rows of `n + 1` entries: `0 / 0` is nan,
which `nan_to_num` replaces by 0.  Returns the normalised row, the maximum and the minimum. -/
def minMax (n : ℕ) (x : ℕ → K) : (ℕ → K) × K × K :=
  let high := rowMax n x
  let low := rowMin n x
  (fun i => if high - low = 0 then 0 else (x i - low) / (high - low), high, low)

/-! ### error metrics (tools.py:266-359), for one row of `n` entries -/

/-- `np.mean` (ml/tools.py:281, 299). -/
def meanOf (n : ℕ) (x : ℕ → K) : K := accum n x / n

/-- `mean_absolute_error` (266-281). -/
def meanAbsoluteError (n : ℕ) (y p : ℕ → K) : K := meanOf n fun i => |y i - p i|

/-- `mean_squared_error` (284-299). -/
def meanSquaredError (n : ℕ) (y p : ℕ → K) : K := meanOf n fun i => (y i - p i) ^ 2

/-- `np.var`: the mean squared deviation from the mean (ml/tools.py:335). -/
def variance (n : ℕ) (x : ℕ → K) : K := meanOf n fun i => (x i - meanOf n x) ^ 2

/-- `explained_variance_score` (320-337): nan and infinities become 0. -/
def explainedVariance (n : ℕ) (y p : ℕ → K) : K :=
  if variance n y = 0 then 0 else 1 - variance n (fun i => y i - p i) / variance n y

/-- `r2_score` (340-359). -/
def r2Score (n : ℕ) (y p : ℕ → K) : K :=
  let num := accum n fun i => (y i - p i) ^ 2
  let den := accum n fun i => (y i - meanOf n y) ^ 2
  if den = 0 then 0 else 1 - num / den

/-- `root_mean_squared_error` (302-317). -/
noncomputable def rootMeanSquaredError (n : ℕ) (y p : ℕ → ℝ) : ℝ := √(meanSquaredError n y p)

end Discrete1.Ml
