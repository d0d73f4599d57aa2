import Verif.Model.MultiGroup

/-!
# Buffer-level model of the iteration drivers that swap or copy arrays

Numpy arrays are identified by a number; a heap maps numbers to contents.  `0` is the array the
caller passed as `flux_old`.  Names are rebound exactly as in the source.
-/

namespace Discrete1.Buffers

variable {K : Type*} [Field K] [LinearOrder K]

/-- Contents of all live arrays (the arrays `flux`, `flux_old` of multi_group.py:269-451). -/
abbrev Heap (K : Type*) := ℕ → ℕ → ℕ → K

/-- `_one_sweep_iso` / `_one_sweep_aniso` (multi_group.py:151-191, 212-266) acting on the arrays named
`flux` and `old`: `flux *= 0.0`, then the group loop reads both arrays and writes into `flux`.
`step old gg flux` is the body of the group loop (`MultiGroup.groupStepIso` / `groupStepAniso`). -/
def sweepInto (groups : ℕ)
    (step : (ℕ → ℕ → K) → ℕ → (ℕ → ℕ → K) → Except PyErr (ℕ → ℕ → K)) (flux old : ℕ)
    (h : Heap K) : Except PyErr (Heap K) :=
  loopE groups (fun gg h => (step (h old) gg (h flux)).map (Function.update h flux))
    (Function.update h flux fun _ _ => 0)

/-- The `while` loop of `source_iteration_iso` (multi_group.py:329-353) and `source_iteration_aniso`
(420-451), `left + 1` sweeps still allowed: sweep into `flux`, test, `flux_old = flux.copy()`
(a fresh array `next`).  Returns the heap and the name of the returned array. -/
def sourceIterationLoop (groups : ℕ)
    (step : (ℕ → ℕ → K) → ℕ → (ℕ → ℕ → K) → Except PyErr (ℕ → ℕ → K))
    (conv : (ℕ → ℕ → K) → (ℕ → ℕ → K) → Bool) (flux : ℕ) :
    ℕ → ℕ → ℕ → Heap K → Except PyErr (Heap K × ℕ)
  | 0, old, next, h =>
    match sweepInto groups step flux old h with
    | .error e => .error e
    | .ok h => .ok (Function.update h next (h flux), flux)
  | left + 1, old, next, h =>
    match sweepInto groups step flux old h with
    | .error e => .error e
    | .ok h =>
      let h' := Function.update h next (h flux)
      if conv (h flux) (h old) then .ok (h', flux)
      else sourceIterationLoop groups step conv flux left next (next + 1) h'

/-- `source_iteration_iso` / `source_iteration_aniso` on buffers: `flux = np.zeros` is array 1
(multi_group.py:269-451). -/
def sourceIterationBuf (groups : ℕ)
    (step : (ℕ → ℕ → K) → ℕ → (ℕ → ℕ → K) → Except PyErr (ℕ → ℕ → K))
    (conv : (ℕ → ℕ → K) → (ℕ → ℕ → K) → Bool) (h : Heap K) : Except PyErr (Heap K × ℕ) :=
  sourceIterationLoop groups step conv 1 99 0 2 (Function.update h 1 fun _ _ => 0)

/-- `source_iteration_collect` (multi_group.py:1329-1355): same loop, additionally
`tracked_flux[count - 2] = flux.copy()` after `count += 1`.  `count` starts at 1; `tracked` is the
array, the result is the returned flux and the saved slice `tracked_flux[: count - 1]` (its length and
contents).  `limit` is `count_gg`. -/
def collectLoop (sweep : (ℕ → ℕ → K) → Except PyErr (ℕ → ℕ → K))
    (conv : (ℕ → ℕ → K) → (ℕ → ℕ → K) → Bool) :
    ℕ → ℕ → (ℕ → ℕ → K) → (ℕ → ℕ → ℕ → K) → Except PyErr ((ℕ → ℕ → K) × ℕ × (ℕ → ℕ → ℕ → K))
  | 0, count, old, tracked =>
    match sweep old with
    | .error e => .error e
    | .ok flux => .ok (flux, count + 1 - 1, Function.update tracked (count + 1 - 2) flux)
  | left + 1, count, old, tracked =>
    match sweep old with
    | .error e => .error e
    | .ok flux =>
      let tracked := Function.update tracked (count + 1 - 2) flux
      if conv flux old then .ok (flux, count + 1 - 1, tracked)
      else collectLoop sweep conv left (count + 1) flux tracked

/-- `source_iteration_collect` (multi_group.py:1264-1355); isotropic sweeps only. -/
def sourceIterationCollect (p : MultiGroup.Problem K) (xsTotal : ℕ → ℕ → K) (xs : ℕ → ℕ → ℕ → K)
    (external boundary : Tools.Arr3 K) (fluxOld : ℕ → ℕ → K) :
    Except PyErr ((ℕ → ℕ → K) × ℕ × (ℕ → ℕ → ℕ → K)) :=
  collectLoop (MultiGroup.oneSweepIso p xsTotal xs external boundary) p.convOut 99 1 fluxOld
    (fun _ _ _ => 0)

/-- `_dmd_warmup` (multi_group.py:801-869): result `(flux, flux_old or None)`. -/
def dmdWarmup (groups : ℕ)
    (step : (ℕ → ℕ → K) → ℕ → (ℕ → ℕ → K) → Except PyErr (ℕ → ℕ → K))
    (conv : (ℕ → ℕ → K) → (ℕ → ℕ → K) → Bool) :
    ℕ → ℕ → ℕ → Heap K → Except PyErr (Heap K × ℕ × Option ℕ)
  | 0, flux, old, h => .ok (h, flux, some old)
  | R + 1, flux, old, h =>
    match sweepInto groups step flux old h with
    | .error e => .error e
    | .ok h =>
      if conv (h flux) (h old) then .ok (h, flux, none)
      else dmdWarmup groups step conv R old flux h

/-- Snapshot matrices: column `k` is kept as a two-dimensional array (`ravel` is a bijection)
(multi_group.py:872-950). -/
structure Snapshots (K : Type*) where
  minus : ℕ → ℕ → ℕ → K
  plus : ℕ → ℕ → ℕ → K

/-- `_dmd_collect` (multi_group.py:872-950), iterations `kk .. kk + todo - 1` of `range(K)`:
result `(flux or flux_old, snapshots or None)`. -/
def dmdCollect (groups : ℕ)
    (step : (ℕ → ℕ → K) → ℕ → (ℕ → ℕ → K) → Except PyErr (ℕ → ℕ → K))
    (conv : (ℕ → ℕ → K) → (ℕ → ℕ → K) → Bool) (snap : ℕ) :
    ℕ → ℕ → ℕ → ℕ → Snapshots K → Heap K → Except PyErr (Heap K × ℕ × Option (Snapshots K))
  | 0, _, _, old, y, h => .ok (h, old, some y)
  | todo + 1, kk, flux, old, y, h =>
    match sweepInto groups step flux old h with
    | .error e => .error e
    | .ok h =>
      if conv (h flux) (h old) then .ok (h, flux, none)
      else
        let diff : ℕ → ℕ → K := fun i g => h flux i g - h old i g
        let y : Snapshots K :=
          { minus := if kk < snap - 1 then Function.update y.minus kk diff else y.minus
            plus := if 0 < kk then Function.update y.plus (kk - 1) diff else y.plus }
        dmdCollect groups step conv snap todo (kk + 1) old flux y h

/-- Result of `dynamic_mode_decomp` before `tools.dmd`: either an early-converged array, or the array
and the snapshots handed to `tools.dmd` (multi_group.py:953-1087). -/
inductive DmdResult (K : Type*)
  | converged (flux : ℕ)
  | extrapolate (flux : ℕ) (y : Snapshots K)

/-- `dynamic_mode_decomp` (multi_group.py:1032-1087): array 1 is `np.zeros`, array 2 is
`flux_old.copy()`. -/
def dynamicModeDecomp (groups : ℕ)
    (step : (ℕ → ℕ → K) → ℕ → (ℕ → ℕ → K) → Except PyErr (ℕ → ℕ → K))
    (conv : (ℕ → ℕ → K) → (ℕ → ℕ → K) → Bool) (R snap : ℕ) (h : Heap K) :
    Except PyErr (Heap K × DmdResult K) :=
  let h := Function.update (Function.update h 1 fun _ _ => 0) 2 (h 0)
  match dmdWarmup groups step conv R 1 2 h with
  | .error e => .error e
  | .ok (h, flux, none) => .ok (h, .converged flux)
  | .ok (h, flux, some old) =>
    match dmdCollect groups step conv snap snap 0 flux old ⟨fun _ _ _ => 0, fun _ _ _ => 0⟩ h with
    | .error e => .error e
    | .ok (h, f, none) => .ok (h, .converged f)
    | .ok (h, f, some y) => .ok (h, .extrapolate f y)

end Discrete1.Buffers
