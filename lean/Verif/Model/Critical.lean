import Verif.Model.Timed
import Verif.Model.Buffers
import Verif.Model.MlSource

/-!
# Model of `critical1d.py`

`norm` is `np.linalg.norm` of a `(cells, groups)` array (concretely `frobenius` over the reals), `absK` its
value on a scalar.  Division by a zero norm gives NaN in numpy; the model's fields give zero, and the theorems
assume nonzero norms where it matters.
-/

namespace Discrete1.Critical

open Discrete1.Tools Discrete1.MultiGroup Discrete1.Drivers Discrete1.Buffers

variable {K : Type*} [Field K] [LinearOrder K]

/-- The pair carried by the power iterations. -/
@[ext] structure KState (K : Type*) where
  flux : ℕ → ℕ → K
  keff : K

/-- The power source `(cells, 1, groups)`: `fission_mat_prod` or `fission_vec_prod`
(critical1d.py:92-95, 224-227). -/
def fissionSource (groups : ℕ) (mm : ℕ → ℕ) (fission : Fission K) (flux : ℕ → ℕ → K) (keff : K) : Arr3 K :=
  match fission with
  | .matrix xs => ⟨1, groups, fun i _ g => fissionMatProd groups flux xs mm keff i g⟩
  | .vector chi nu => ⟨1, groups, fun i _ g => fissionVecProd groups flux chi nu mm keff i g⟩

/-- `_update_keff_mat` or `_update_keff_vec` (critical1d.py:113-118). -/
def updateKeff (cells groups : ℕ) (mm : ℕ → ℕ) (fission : Fission K) (flux fluxOld : ℕ → ℕ → K) (keff : K) :
    K :=
  match fission with
  | .matrix xs => updateKeffMat cells groups flux fluxOld xs mm keff
  | .vector chi nu => updateKeffVec cells groups flux fluxOld chi nu mm keff

/-- `flux /= np.linalg.norm(flux)` (critical1d.py:121, 255, 452, 458). -/
def normalise (norm : (ℕ → ℕ → K) → K) (flux : ℕ → ℕ → K) : ℕ → ℕ → K := fun i g => flux i g / norm flux

/-- The start of every power iteration (critical1d.py:79-81, 210-212, 582-584): `flux_old` random, `keff` its
norm, `flux_old /= norm(keff)` (the norm of the number `keff` is its absolute value). -/
def start (norm : (ℕ → ℕ → K) → K) (random : ℕ → ℕ → K) : KState K :=
  ⟨fun i g => random i g / |norm random|, norm random⟩

/-- The `while` body up to the normalisation (critical1d.py:91-121). -/
def powerStep (p : Problem K) (norm : (ℕ → ℕ → K) → K) (xsTotal : ℕ → ℕ → K) (scatter : Scatter K)
    (fission : Fission K) (s : KState K) : Except PyErr (KState K) :=
  match sourceIteration p xsTotal scatter (fissionSource p.groups p.mm fission s.flux s.keff) zeroBoundary
    s.flux with
  | .error e => .error e
  | .ok flux => .ok ⟨normalise norm flux, updateKeff p.cells p.groups p.mm fission flux s.flux s.keff⟩

/-- `while not converged: step; count += 1; converged = change < tol or count >= limit` with `left + 1` passes
still allowed and `count` passes done; `conv` is the test `change < tol` on (new flux, old flux)
(critical1d.py:93-131). -/
def powerLoop (step : KState K → Except PyErr (KState K)) (conv : (ℕ → ℕ → K) → (ℕ → ℕ → K) → Bool) :
    ℕ → ℕ → KState K → Except PyErr (KState K × ℕ)
  | 0, count, s =>
    match step s with
    | .error e => .error e
    | .ok s' => .ok (s', count + 1)
  | left + 1, count, s =>
    match step s with
    | .error e => .error e
    | .ok s' => if conv s'.flux s.flux then .ok (s', count + 1) else powerLoop step conv left (count + 1) s'

/-- `power_iteration` (critical1d.py:30-135) with `counter=True`: `(flux, keff), count`; `count_kk = 100`. -/
def powerIteration (p : Problem K) (norm : (ℕ → ℕ → K) → K) (conv : (ℕ → ℕ → K) → (ℕ → ℕ → K) → Bool)
    (xsTotal : ℕ → ℕ → K) (scatter : Scatter K) (fission : Fission K) (random : ℕ → ℕ → K) :
    Except PyErr (KState K × ℕ) :=
  powerLoop (powerStep p norm xsTotal scatter fission) conv 99 0 (start norm random)

/-! ### collect_power_iteration -/

/-- The step of `collect_power_iteration` (critical1d.py:223-255): `source_iteration_collect` instead of
`source_iteration` (isotropic scattering); its own output file is the slice returned by the model of
`source_iteration_collect`, indexed by the outer `count`. -/
def collectStep (p : Problem K) (norm : (ℕ → ℕ → K) → K) (xsTotal : ℕ → ℕ → K) (xs : ℕ → ℕ → ℕ → K)
    (fission : Fission K) (s : KState K) : Except PyErr (KState K × ℕ × (ℕ → ℕ → ℕ → K)) :=
  match sourceIterationCollect p xsTotal xs (fissionSource p.groups p.mm fission s.flux s.keff) zeroBoundary
    s.flux with
  | .error e => .error e
  | .ok (flux, n, tracked) =>
    .ok (⟨normalise norm flux, updateKeff p.cells p.groups p.mm fission flux s.flux s.keff⟩, n, tracked)

/-- Python index `i` of an axis of length `n`: negative values count from the end
(critical1d.py:265 (`tracked_flux[count - 2]`)). -/
def pyIndex (n : ℕ) (i : ℤ) : ℕ := if i < 0 then (n + i).toNat else i.toNat

/-- What `collect_power_iteration` leaves behind: the returned pair, and the file
`flux_fission_model.npy` = `tracked_flux[: count - 1]` (number of rows, rows) (critical1d.py:138-275). -/
structure Collected (K : Type*) where
  result : KState K
  rows : ℕ
  saved : ℕ → ℕ → ℕ → K

/-- The `while` loop of `collect_power_iteration` (critical1d.py:222-268): here `count` is increased *after*
the test (lines 260-261) and `tracked_flux[count - 2]` is written (line 265) into an array of `count_kk = 100`
rows.  `left` passes remain before `count >= 100` holds. -/
def collectLoop (step : KState K → Except PyErr (KState K × ℕ × (ℕ → ℕ → ℕ → K)))
    (conv : (ℕ → ℕ → K) → (ℕ → ℕ → K) → Bool) :
    ℕ → ℕ → KState K → (ℕ → ℕ → ℕ → K) → Except PyErr (Collected K)
  | left, count, s, tracked =>
    match step s with
    | .error e => .error e
    | .ok (s', _, _) =>
      let tracked := Function.update tracked (pyIndex 100 ((count : ℤ) + 1 - 2)) s'.flux
      if conv s'.flux s.flux then .ok ⟨s', count + 1 - 1, tracked⟩
      else
        match left with
        | 0 => .ok ⟨s', count + 1 - 1, tracked⟩
        | left + 1 => collectLoop step conv left (count + 1) s' tracked

/-- `collect_power_iteration` (critical1d.py:138-275). -/
def collectPowerIteration (p : Problem K) (norm : (ℕ → ℕ → K) → K)
    (conv : (ℕ → ℕ → K) → (ℕ → ℕ → K) → Bool) (xsTotal : ℕ → ℕ → K) (xs : ℕ → ℕ → ℕ → K)
    (fission : Fission K) (random : ℕ → ℕ → K) : Except PyErr (Collected K) :=
  collectLoop (collectStep p norm xsTotal xs fission) conv 100 0 (start norm random) fun _ _ _ => 0

/-! ### ml_power_iteration -/

/-- The loop of `ml_power_iteration` (critical1d.py:390-486).  `change new old` is the measured change (any
type `C`, e.g. floats with NaN), `gt` and `small` the comparisons `change > change_old` and
`change < change_pp`.  `left + 1` passes are still allowed (`count_pp = 50`), `count` are done.  The result is
`(flux, keff), count`; the early exit of lines 468-473 returns the *old* pair. -/
def mlLoop {C : Type*} (step : KState K → Except PyErr (KState K)) (change : (ℕ → ℕ → K) → (ℕ → ℕ → K) → C)
    (gt : C → C → Bool) (small : C → Bool) : ℕ → ℕ → C → KState K → Except PyErr (KState K × ℕ)
  | left, count, changeOld, s =>
    match step s with
    | .error e => .error e
    | .ok s' =>
      let c := change s'.flux s.flux
      if gt c changeOld ∧ 20 ≤ count + 1 then .ok (s, count + 1)
      else if small c then .ok (s', count + 1)
      else
        match left with
        | 0 => .ok (s', count + 1)
        | left + 1 => mlLoop step change gt small left (count + 1) c s'

/-- The body of the loop (critical1d.py:391-462): physics or predicted fission source, source iteration with
physics or predicted scattering, `keff` from the production ratio or (with fission models) from the norm. -/
def mlStep (p : Problem K) (norm : (ℕ → ℕ → K) → K) (convMl : (ℕ → ℕ → K) → (ℕ → ℕ → K) → Bool)
    (xsTotal : ℕ → ℕ → K) (scatter : ℕ → ℕ → ℕ → K) (fission : Fission K)
    (nFission : ℕ) (fissionModels : ℕ → Option (Ml.Predict K)) (nScatter : ℕ)
    (scatterModels : ℕ → Option (Ml.Predict K)) (label : Ml.Label) (s : KState K) :
    Except PyErr (KState K) :=
  let source : Except PyErr (Arr3 K) :=
    if nFission = 0 then .ok (fissionSource p.groups p.mm fission s.flux s.keff)
    else match fission with
      | .matrix xs => .ok ⟨1, p.groups, fun i _ g =>
          Ml.fissionProdPredict p.cells p.groups nFission s.flux xs p.mm 1 fissionModels i g⟩
      | .vector _ _ => .error .indexError  -- `xs_fission[nn, :, 0]` of a two-dimensional array
  match source with
  | .error e => .error e
  | .ok source =>
    match (if nScatter = 0 then sourceIteration p xsTotal (.iso scatter) source zeroBoundary s.flux
      else Ml.mlSourceIteration p convMl xsTotal scatter source zeroBoundary nScatter scatterModels label
        s.flux) with
    | .error e => .error e
    | .ok flux =>
      .ok ⟨normalise norm flux, if nFission = 0 then
        updateKeff p.cells p.groups p.mm fission flux s.flux s.keff else norm flux⟩

/-- `ml_power_iteration` (critical1d.py:278-486): `keff_old = 1`, `change_old = 100`; without any model it
falls back on `power_iteration` (lines 360-374), which ignores `flux_old` and starts from a random flux. -/
def mlPowerIteration {C : Type*} (p : Problem K) (norm : (ℕ → ℕ → K) → K)
    (conv convMl : (ℕ → ℕ → K) → (ℕ → ℕ → K) → Bool)
    (change : (ℕ → ℕ → K) → (ℕ → ℕ → K) → C) (gt : C → C → Bool) (small : C → Bool) (hundred : C)
    (xsTotal : ℕ → ℕ → K) (scatter : ℕ → ℕ → ℕ → K) (fission : Fission K)
    (nFission : ℕ) (fissionModels : ℕ → Option (Ml.Predict K)) (nScatter : ℕ)
    (scatterModels : ℕ → Option (Ml.Predict K)) (label : Ml.Label) (fluxOld random : ℕ → ℕ → K) :
    Except PyErr (KState K × ℕ) :=
  if nFission = 0 ∧ nScatter = 0 then
    powerIteration p norm conv xsTotal (.iso scatter) fission random
  else
    mlLoop (mlStep p norm convMl xsTotal scatter fission nFission fissionModels nScatter scatterModels label)
      change gt small 49 0 hundred ⟨fluxOld, 1⟩

/-! ### hybrid_power_iteration -/

/-- Variables live across the passes of `hybrid_power_iteration` (critical1d.py:580-645). -/
structure HybK (K : Type*) where
  flux : ℕ → ℕ → K
  fluxC : ℕ → ℕ → K
  keff : K

/-- Steps 1-7 of `hybrid_power_iteration` (critical1d.py:597-641); `pU`, `pC` fine and collided discretisation,
`xsC`, `xsTotalC` the collided data of `_collided_terms` (656-686). -/
def hybridStep (pU pC : Problem K) (norm : (ℕ → ℕ → K) → K) (xsTotal xsTotalC : ℕ → ℕ → K)
    (xs xsC fission : ℕ → ℕ → ℕ → K) (coarse : ℕ → ℕ) (factor : ℕ → K) (s : HybK K) :
    Except PyErr (HybK K) :=
  match knownSourceScalar pU xsTotal (fissionSource pU.groups pU.mm (.matrix fission) s.flux s.keff)
    zeroBoundary false with
  | .error e => .error e
  | .ok u =>
    match sourceIteration pC xsTotalC (.iso xsC)
      ⟨1, pC.groups, fun i _ c => hybridSourceCollided pU.groups u xs pU.mm coarse i c⟩ zeroBoundary s.fluxC with
    | .error e => .error e
    | .ok fluxC =>
      let flux := fun i g => u i g + fluxC i (coarse g) * factor g
      .ok ⟨normalise norm flux, fluxC, updateKeffMat pU.cells pU.groups flux s.flux fission pU.mm s.keff⟩

/-- `hybrid_power_iteration` (critical1d.py:489-653): same loop and limit as `power_iteration`; the collided
flux starts at zero and is reused as guess. -/
def hybridLoop (step : HybK K → Except PyErr (HybK K)) (conv : (ℕ → ℕ → K) → (ℕ → ℕ → K) → Bool) :
    ℕ → ℕ → HybK K → Except PyErr (HybK K × ℕ)
  | 0, count, s =>
    match step s with
    | .error e => .error e
    | .ok s' => .ok (s', count + 1)
  | left + 1, count, s =>
    match step s with
    | .error e => .error e
    | .ok s' => if conv s'.flux s.flux then .ok (s', count + 1) else hybridLoop step conv left (count + 1) s'

/-- `hybrid_power_iteration` (critical1d.py:489-653): start values, then the loop. -/
def hybridPowerIteration (pU pC : Problem K) (norm : (ℕ → ℕ → K) → K)
    (conv : (ℕ → ℕ → K) → (ℕ → ℕ → K) → Bool) (xsTotal xsTotalC : ℕ → ℕ → K)
    (xs xsC fission : ℕ → ℕ → ℕ → K) (coarse : ℕ → ℕ) (factor : ℕ → K) (random : ℕ → ℕ → K) :
    Except PyErr (HybK K × ℕ) :=
  hybridLoop (hybridStep pU pC norm xsTotal xsTotalC xs xsC fission coarse factor) conv 99 0
    ⟨(start norm random).flux, fun _ _ => 0, (start norm random).keff⟩

end Discrete1.Critical
