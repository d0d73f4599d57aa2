import Verif.Model.MultiGroup
import Mathlib.Data.List.Basic

/-!
# Model of the machine-learning sources (`tools.py:1001-1227`, `ml/tools.py:362-388`) and of
`multi_group.ml_source_iteration` (multi_group.py:1358-1461)

A trained model is an arbitrary function from a block of rows to a block of rows (row number, group); an
integer placeholder is `none`.
-/

namespace Discrete1.Ml

open Finset Discrete1.Tools Discrete1.MultiGroup

variable {K : Type*} [Field K] [LinearOrder K]

/-- What `model.predict(rows, label)` computes, for the label already chosen: number of rows, rows
(tools.py:1076, 1160-1162). -/
abbrev Predict (K : Type*) := ℕ → (ℕ → ℕ → K) → ℕ → ℕ → K

/-- `np.argwhere(medium_map == nn).flatten()` (tools.py:1058, 1141). -/
def cellsOf (cells : ℕ) (mm : ℕ → ℕ) (nn : ℕ) : List ℕ := (List.range cells).filter fun i => mm i = nn

/-- `flux[idx]` (tools.py:1069, 1152). -/
def rowsOf (idx : List ℕ) (flux : ℕ → ℕ → K) : ℕ → ℕ → K := fun r g => flux (idx.getD r 0) g

/-- `np.sum(mat_flux)` over the rows (tools.py:1071, 1154). -/
def blockSum (groups rows : ℕ) (f : ℕ → ℕ → K) : K := accum rows fun r => accum groups fun g => f r g

/-- `source[idx] = rows`: cell `i` of the list receives the row at its position (tools.py:1078, 1164). -/
def putRows (idx : List ℕ) (rows : ℕ → ℕ → K) (source : ℕ → ℕ → K) : ℕ → ℕ → K :=
  fun i g => if i ∈ idx then rows (idx.idxOf i) g else source i g

/-- `scale / np.sum(mat_flux, axis=1)` times the row (tools.py:1078, 1164), and division by `keff`:
`mat_flux / keff * (scale / sum)`. -/
def rescale (groups : ℕ) (scale : ℕ → K) (keff : K) (pred : ℕ → ℕ → K) : ℕ → ℕ → K :=
  fun r g => pred r g / keff * (scale r / accum groups fun g' => pred r g')

/-- `np.sum(mat_flux * xs[nn, :, 0], axis=1)` (tools.py:1074, 1156). -/
def scaleOf (groups : ℕ) (xs : ℕ → ℕ → ℕ → K) (nn : ℕ) (rows : ℕ → ℕ → K) : ℕ → K :=
  fun r => accum groups fun g => rows r g * xs nn g 0

/-- Body of the loop over the models of `fission_prod_predict` (tools.py:1056-1078).  In the physics branch
`fission_mat_prod` is applied to the rows of the material. -/
def fissionModelStep (cells groups : ℕ) (flux : ℕ → ℕ → K) (xs : ℕ → ℕ → ℕ → K) (mm : ℕ → ℕ) (keff : K)
    (models : ℕ → Option (Predict K)) (nn : ℕ) (source : ℕ → ℕ → K) : ℕ → ℕ → K :=
  let idx := cellsOf cells mm nn
  let rows := rowsOf idx flux
  match models nn with
  | none => putRows idx (fissionMatProd groups rows xs (fun r => mm (idx.getD r 0)) keff) source
  | some predict =>
    if blockSum groups idx.length rows = 0 then source
    else putRows idx (rescale groups (scaleOf groups xs nn rows) keff (predict idx.length rows)) source

/-- `fission_prod_predict` (tools.py:1001-1078) with `count` models: `source[:, 0, :]`. -/
def fissionProdPredict (cells groups count : ℕ) (flux : ℕ → ℕ → K) (xs : ℕ → ℕ → ℕ → K) (mm : ℕ → ℕ)
    (keff : K) (models : ℕ → Option (Predict K)) : ℕ → ℕ → K :=
  loop count (fissionModelStep cells groups flux xs mm keff models) fun _ _ => 0

/-- `scatter_prod` (tools.py:1168-1227): rows of materials with a vanishing matrix keep the old `source`. -/
def scatterProd (groups : ℕ) (flux : ℕ → ℕ → K) (xs : ℕ → ℕ → ℕ → K) (source : ℕ → ℕ → K) (mm : ℕ → ℕ) :
    ℕ → ℕ → K := fun i og =>
  if matSum groups (xs (mm i)) = 0 then source i og
  else accum groups fun ig => flux i ig * xs (mm i) og ig

/-- The `label` argument of `scatter_prod_predict`: `None`, an array whose first entry is a float (one label
for all materials), or one label per material.  `nLabels` is its length (tools.py:1081, 1136). -/
inductive Label
  | none
  | one
  | perMaterial (nLabels : ℕ)
  deriving DecidableEq

/-- Body of the loop over the models of `scatter_prod_predict` (tools.py:1139-1164); `models nn` is the model
together with the label it receives.  `label[nn]` past the end is an IndexError. -/
def scatterModelStep (cells groups : ℕ) (flux : ℕ → ℕ → K) (xs : ℕ → ℕ → ℕ → K) (mm : ℕ → ℕ)
    (models : ℕ → Option (Predict K)) (label : Label) (nn : ℕ) (source : ℕ → ℕ → K) :
    Except PyErr (ℕ → ℕ → K) :=
  let idx := cellsOf cells mm nn
  let rows := rowsOf idx flux
  match models nn with
  | none => .ok (putRows idx (scatterProd groups rows xs (rowsOf idx source) fun r => mm (idx.getD r 0)) source)
  | some predict =>
    if blockSum groups idx.length rows = 0 then .ok source
    else
      let missing := match label with
        | .perMaterial n => decide (n ≤ nn)
        | _ => false
      if missing then .error .indexError
      else .ok (putRows idx (rescale groups (scaleOf groups xs nn rows) 1 (predict idx.length rows)) source)

/-- `scatter_prod_predict` (tools.py:1081-1164): line 1136 evaluates `label[0]`, a TypeError for `None` and an
IndexError for an empty list. -/
def scatterProdPredict (cells groups count : ℕ) (flux : ℕ → ℕ → K) (xs : ℕ → ℕ → ℕ → K) (mm : ℕ → ℕ)
    (models : ℕ → Option (Predict K)) (label : Label) : Except PyErr (ℕ → ℕ → K) :=
  match label with
  | .none => .error .typeError
  | .perMaterial 0 => .error .indexError
  | _ => loopE count (scatterModelStep cells groups flux xs mm models label) fun _ _ => 0

/-- `update_cross_sections` (ml/tools.py:362-388). -/
def updateCrossSections (groups : ℕ) (xs : ℕ → ℕ → ℕ → K) (modelIdx : List ℕ) : ℕ → ℕ → ℕ → K :=
  fun mat a b =>
    if mat ∈ modelIdx then
      if b = 0 then ∑ og ∈ range groups, xs mat og a else 0
    else xs mat a b

/-- `scatter_source_sn` (spatial_sweep.py:221-260) by geometry: 1 slab, 2 sphere.  Other values return None
(stored as NaN by numpy); they are outside the model, which raises. -/
def scatterSourceSn (p : Problem K) (xsTotal scatterSource : ℕ → K) (external boundary : Arr2 K) :
    Except PyErr (ℕ → K) :=
  if p.geometry = 1 then
    Slab.scatterSourceSn p.cells p.angles xsTotal scatterSource external boundary p.mm p.dx p.angleX p.angleW
      p.bcL p.bcR
  else if p.geometry = 2 then
    Sphere.scatterSourceSn p.cells p.angles p.pi xsTotal scatterSource external boundary p.mm p.dx p.angleX
      p.angleW
  else .error .typeError

/-- One pass of the `while` body of `ml_source_iteration` (multi_group.py:1427-1454). -/
def mlSweep (p : Problem K) (xsTotal : ℕ → ℕ → K) (xs : ℕ → ℕ → ℕ → K) (external boundary : Arr3 K)
    (count : ℕ) (models : ℕ → Option (Predict K)) (label : Label) (old : ℕ → ℕ → K) :
    Except PyErr (ℕ → ℕ → K) :=
  match scatterProdPredict p.cells p.groups count old xs p.mm models label with
  | .error e => .error e
  | .ok source =>
    loopE p.groups (fun gg flux =>
      (scatterSourceSn p (fun m => xsTotal m gg) (fun i => source i gg)
        (external.group (bidx external.groups gg)) (boundary.group (bidx boundary.groups gg))).map
        (putCol flux gg)) (fun _ _ => 0)

/-- `ml_source_iteration` (multi_group.py:1358-1461): at most `count_pp = 50` passes; `conv` is
`norm((flux - flux_old) / flux / cells) < change_pp`. -/
def mlSourceIteration (p : Problem K) (conv : (ℕ → ℕ → K) → (ℕ → ℕ → K) → Bool) (xsTotal : ℕ → ℕ → K)
    (xs : ℕ → ℕ → ℕ → K) (external boundary : Arr3 K) (count : ℕ) (models : ℕ → Option (Predict K))
    (label : Label) (fluxOld : ℕ → ℕ → K) : Except PyErr (ℕ → ℕ → K) :=
  iterateE (mlSweep p xsTotal xs external boundary count models label) conv 49 fluxOld

end Discrete1.Ml
