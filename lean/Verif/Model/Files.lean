import Verif.Model.Critical
import Verif.Model.MlTools
import Verif.Model.FileNames
import Verif.Model.Datasets
import Mathlib.Data.List.Sort
import Mathlib.Data.List.Lex

/-!
# Model of the files the package writes and of crashes while it writes them

A file is complete or torn (`open(name, "wb")` truncates before anything is written; numpy, pickle and torch write
through such a handle, multi_group.py:1353, critical1d.py:268-273, ml/tools.py:123, 166, 211, ml/data.py:59-69,
ml/train.py:685, 774-775).  A call is the list of the disk changes it makes; a crash after `k` of them leaves the disk
`run (steps.take k)`.  Reading a torn file raises (ValueError here; numpy, pickle and torch raise EOFError, ValueError,
UnpicklingError or RuntimeError depending on where the file ends).
-/

namespace Discrete1.Files

open Discrete1.Ml Discrete1.Tools Discrete1.MultiGroup Discrete1.Critical

/-- A file on the disk: completely written or torn (multi_group.py:1353). -/
inductive File (V : Type)
  | whole (v : V)
  | torn

/-- A directory listing (ml/tools.py:200); the first entry of a name counts. -/
abbrev Disk (V : Type) := List (Name × File V)

/-- Create or overwrite a file (multi_group.py:1353). -/
def put {V : Type} (d : Disk V) (n : Name) (f : File V) : Disk V := (n, f) :: d.filter fun e => decide (e.1 ≠ n)

/-- Read a file: `np.load` (ml/tools.py:158-160, 201-205). -/
def load {V : Type} (d : Disk V) (n : Name) : Except PyErr V :=
  match d.lookup n with
  | none => .error .fileNotFound
  | some .torn => .error .valueError
  | some (.whole v) => .ok v

/-- The changes of the disk that a call makes, one after the other (critical1d.py:222-273). -/
abbrev Steps (V : Type) := List (Disk V → Disk V)

/-- The disk after all of them (critical1d.py:222-273). -/
def run {V : Type} (steps : Steps V) (d : Disk V) : Disk V := steps.foldl (fun d s => s d) d

/-- `np.save(name, v)` of a name ending in `.npy`: the file is truncated, then written (critical1d.py:268-273). -/
def save {V : Type} (n : Name) (v : V) : Steps V := [fun d => put d n .torn, fun d => put d n (.whole v)]

/-! ### What the collecting runs write (critical1d.py:138-275, multi_group.py:1264-1355) -/

/-- Arrays in `.npy` files with their shapes: fluxes `(iterations, cells, groups)`, cross sections
`(materials, groups, groups)` or `nusigf` `(materials, groups)`, the medium map, training data
(critical1d.py:268-273, ml/tools.py:166). -/
inductive NpArray (K : Type)
  | flux (iterations cells groups : ℕ) (a : ℕ → ℕ → ℕ → K)
  | xs (materials rows cols : ℕ) (a : ℕ → ℕ → ℕ → K)
  | vec (materials cols : ℕ) (a : ℕ → ℕ → K)
  | map (cells : ℕ) (a : ℕ → ℕ)
  | training (rows : List (Row K))

/-- `filepath + f"flux_scatter_model_{fiteration}"` with `fiteration = str(iteration).zfill(3)`; `np.save` appends
`.npy` (multi_group.py:1352-1353). -/
def scatterName (path : Name) (j : ℕ) : Name :=
  path ++ ("flux_scatter_model".toList ++ ('_' :: zfill 3 (natStr j)) ++ ".npy".toList)

/-- The other names (critical1d.py:268-273; ml/tools.py:166, 211). -/
def named (path : Name) (s : String) : Name := path ++ (s.toList ++ ".npy".toList)

variable {K : Type} [Field K] [LinearOrder K]

/-- The loop of `collect_power_iteration` with the inner fluxes each pass has saved (critical1d.py:222-268,
multi_group.py:1352-1353): a pass that raises has saved nothing. -/
def collectTrace (step : KState K → Except PyErr (KState K × ℕ × (ℕ → ℕ → ℕ → K)))
    (conv : (ℕ → ℕ → K) → (ℕ → ℕ → K) → Bool) :
    ℕ → ℕ → KState K → (ℕ → ℕ → ℕ → K) → List (ℕ × (ℕ → ℕ → ℕ → K)) × Except PyErr (Collected K)
  | left, count, s, tracked =>
    match step s with
    | .error e => ([], .error e)
    | .ok (s', n, snaps) =>
      let tracked := Function.update tracked (pyIndex 100 ((count : ℤ) + 1 - 2)) s'.flux
      if conv s'.flux s.flux then ([(n, snaps)], .ok ⟨s', count + 1 - 1, tracked⟩)
      else
        match left with
        | 0 => ([(n, snaps)], .ok ⟨s', count + 1 - 1, tracked⟩)
        | left + 1 =>
          let r := collectTrace step conv left (count + 1) s' tracked
          ((n, snaps) :: r.1, r.2)

/-- `xs_fission` as saved: the matrix, or `nusigf` when `chi` is given (critical1d.py:271). -/
def fissionArray (materials groups : ℕ) : Fission K → NpArray K
  | .matrix xs => .xs materials groups groups xs
  | .vector _ nu => .vec materials groups nu

/-- The files of the passes `j, j + 1, ...` (multi_group.py:1352-1353). -/
def scatterSteps (cells groups : ℕ) (path : Name) : ℕ → List (ℕ × (ℕ → ℕ → ℕ → K)) → Steps (NpArray K)
  | _, [] => []
  | j, a :: l => save (scatterName path j) (.flux a.1 cells groups a.2) ++ scatterSteps cells groups path (j + 1) l

/-- The four files written at the end (critical1d.py:268-273). -/
def finalSteps (cells groups materials : ℕ) (mm : ℕ → ℕ) (path : Name) (xs : ℕ → ℕ → ℕ → K) (fission : Fission K)
    (c : Collected K) : Steps (NpArray K) :=
  save (named path "flux_fission_model") (.flux c.rows cells groups c.saved) ++
  save (named path "fission_cross_sections") (fissionArray materials groups fission) ++
  save (named path "scatter_cross_sections") (.xs materials groups groups xs) ++
  save (named path "medium_map") (.map cells mm)

/-- Everything `collect_power_iteration` does to the disk (critical1d.py:222-273); if a pass raises, nothing more is
written. -/
def collectSteps (p : Problem K) (materials : ℕ) (norm : (ℕ → ℕ → K) → K)
    (conv : (ℕ → ℕ → K) → (ℕ → ℕ → K) → Bool) (xsTotal : ℕ → ℕ → K) (xs : ℕ → ℕ → ℕ → K) (fission : Fission K)
    (random : ℕ → ℕ → K) (path : Name) : Steps (NpArray K) :=
  let r := collectTrace (collectStep p norm xsTotal xs fission) conv 100 0 (start norm random) fun _ _ _ => 0
  scatterSteps p.cells p.groups path 0 r.1 ++
    match r.2 with
    | .error _ => []
    | .ok c => finalSteps p.cells p.groups materials p.mm path xs fission c

/-! ### Reading them back: clean_data_fission, clean_data_scatter (ml/tools.py:128-212) -/

/-- `flux[cc, ii] @ xs_matrix[mat].T` written to a row of `groups` entries (ml/tools.py:67): a matrix gives a vector
(one entry is broadcast), a row of `nusigf` gives a number, which is broadcast. -/
def reactionRate (xs : NpArray K) (mat groups : ℕ) (f : ℕ → K) : Except PyErr (ℕ → K) :=
  match xs with
  | .xs materials rows cols a =>
    if materials ≤ mat then .error .indexError
    else if cols ≠ groups then .error .valueError
    else if rows = groups ∨ rows = 1 then .ok fun h => accum groups fun g => f g * a mat (if rows = groups then h else 0) g
    else .error .valueError
  | .vec materials cols a =>
    if materials ≤ mat then .error .indexError
    else if cols ≠ groups then .error .valueError
    else .ok fun _ => accum groups fun g => f g * a mat g
  | _ => .error .valueError

/-- One cell of one iteration (ml/tools.py:60-67). -/
def cellRow (groups mapCells : ℕ) (mm : ℕ → ℕ) (nLabels : ℕ) (labels : ℕ → K) (xs : NpArray K)
    (a : ℕ → ℕ → ℕ → K) (cc ii : ℕ) : Except PyErr (Row K) :=
  if mapCells ≤ ii then .error .indexError
  else if nLabels ≤ ii then .error .indexError
  else match reactionRate xs (mm ii) groups (a cc ii) with
    | .error e => .error e
    | .ok r => .ok ⟨labels ii, a cc ii, r⟩

/-- `combine_flux_reaction` on arrays read from files, with the shape errors (ml/tools.py:21-73). -/
def combine (flux xs map : NpArray K) (nLabels : ℕ) (labels : ℕ → K) : Except PyErr (List (Row K)) :=
  match flux, map with
  | .flux n cells groups a, .map mapCells mm =>
    match (List.range (n * cells)).mapM fun k =>
        cellRow groups mapCells mm nLabels labels xs a (k / cells) (k % cells) with
    | .error e => .error e
    | .ok rows => .ok (rows.filter fun r => decide (rowSum groups r ≠ 0))
  | _, _ => .error .valueError

/-- The rows `clean_data_fission` computes (ml/tools.py:157-161). -/
def fissionRows (path : Name) (nLabels : ℕ) (labels : ℕ → K) (d : Disk (NpArray K)) : Except PyErr (List (Row K)) := do
  let flux ← load d (named path "flux_fission_model")
  let xs ← load d (named path "fission_cross_sections")
  let map ← load d (named path "medium_map")
  combine flux xs map nLabels labels

/-- `glob(prefix + "*" + suffix)`: `*` stands for any characters but `/`; the path has no wildcards
(ml/tools.py:200). -/
def globMatch (pre suf n : Name) : Bool :=
  pre.isPrefixOf n && suf.isSuffixOf (n.drop pre.length) &&
    !((n.drop pre.length).take (n.length - pre.length - suf.length)).contains '/'

/-- `np.sort(glob(path + "flux_scatter_model*.npy"))` (ml/tools.py:200). -/
def scatterFiles {V : Type} (path : Name) (d : Disk V) : List Name :=
  ((d.map Prod.fst).filter (globMatch (path ++ "flux_scatter_model".toList) ".npy".toList)).mergeSort
    fun a b => decide (a ≤ b)

/-- `xs_scatter.shape[1]` (ml/tools.py:203). -/
def secondAxis : NpArray K → Except PyErr ℕ
  | .xs _ rows _ _ => .ok rows
  | .vec _ cols _ => .ok cols
  | .flux _ cells _ _ => .ok cells
  | .map _ _ => .error .indexError
  | .training rows => .ok rows.length

/-- The number of entries of a row without its label (ml/tools.py:207). -/
def rowEntries : NpArray K → ℕ
  | .flux _ _ groups _ => groups
  | _ => 0

/-- The loop over the files (ml/tools.py:204-207): `np.hstack` refuses rows of another length. -/
def scatterLoop (xs map : NpArray K) (width nLabels : ℕ) (labels : ℕ → K) (d : Disk (NpArray K)) :
    List Name → List (Row K) → Except PyErr (List (Row K))
  | [], data => .ok data
  | file :: files, data =>
    match load d file with
    | .error e => .error e
    | .ok flux =>
      match combine flux xs map nLabels labels with
      | .error e => .error e
      | .ok rows =>
        if rowEntries flux = width then scatterLoop xs map width nLabels labels d files (data ++ rows)
        else .error .valueError

/-- The rows `clean_data_scatter` computes (ml/tools.py:199-207). -/
def scatterRows (path : Name) (nLabels : ℕ) (labels : ℕ → K) (d : Disk (NpArray K)) : Except PyErr (List (Row K)) := do
  let files := scatterFiles path d
  let xs ← load d (named path "scatter_cross_sections")
  let map ← load d (named path "medium_map")
  let width ← secondAxis xs
  scatterLoop xs map width nLabels labels d files []

/-- `"scatter"` or `"fission"` (ml/tools.py:164, 209). -/
def kindName (scatter : Bool) : Name := if scatter then "scatter".toList else "fission".toList

/-- `path + f"{xs}_{name}_training_data"`; `np.save` appends `.npy` (ml/tools.py:123). -/
def splitName (path : Name) (scatter : Bool) (name : Name) : Name :=
  path ++ (kindName scatter ++ ('_' :: name) ++ "_training_data.npy".toList)

/-- `path + "fission_training_data"` or `path + "scatter_training_data"` (ml/tools.py:166, 211). -/
def trainingName (path : Name) (scatter : Bool) : Name :=
  path ++ (kindName scatter ++ "_training_data.npy".toList)

/-- The loop of `_split_by_material`: what it writes and the counter (ml/tools.py:108-123). -/
def splitLoop (path : Name) (scatter : Bool) (rows : List (Row K)) : List (Name × List K) → Steps (NpArray K) × ℕ
  | [] => ([], 0)
  | (name, labels) :: splits =>
    let sel := rows.filter fun r => decide (r.label ∈ labels)
    let rest := splitLoop path scatter rows splits
    if sel.length = 0 then rest
    else (save (splitName path scatter name) (.training sel) ++ rest.1, sel.length + rest.2)

/-- `clean_data_fission` and `clean_data_scatter` (ml/tools.py:128-167, 170-212): what is written, and the outcome; the
assertion (ml/tools.py:125) comes after the writing. -/
def cleanCall (path : Name) (scatter : Bool) (splits : Option (List (Name × List K))) (nLabels : ℕ) (labels : ℕ → K)
    (d : Disk (NpArray K)) : Steps (NpArray K) × Except PyErr Unit :=
  match (if scatter then scatterRows path nLabels labels d else fissionRows path nLabels labels d) with
  | .error e => ([], .error e)
  | .ok rows =>
    match splits with
    | none => (save (trainingName path scatter) (.training rows), .ok ())
    | some splits =>
      let r := splitLoop path scatter rows splits
      (r.1, if r.2 = rows.length then .ok () else .error .assertion)

/-! ### deeponet_memmap and its companion file (ml/data.py:16-96) -/

/-- What the two files hold: the memmap file is a sequence of float32 numbers, records of `w = fluxes + labels + outputs`
numbers one after the other (the dtype, ml/data.py:41-47); the pickle holds the four sizes (ml/data.py:67-69). -/
inductive MemFile (K : Type)
  | floats (length : ℕ) (v : ℕ → K)
  | sizes (samples fluxes labels outputs : ℕ)

/-- The rows after the shuffle, as float32 (ml/data.py:60-62). -/
structure MemRows (K : Type) where
  samples : ℕ
  fluxes : ℕ
  labels : ℕ
  outputs : ℕ
  flux : ℕ → ℕ → K
  label : ℕ → ℕ → K
  y : ℕ → ℕ → K

/-- The size of a record (the dtype, ml/data.py:41-47, 88-94). -/
def MemRows.width {K : Type} (m : MemRows K) : ℕ := m.fluxes + m.labels + m.outputs

/-- The numbers in the file after `stage` of the assignments `data["flux"][:]`, `data["labels"][:]`, `data["y"][:]`
(ml/data.py:60-62); `mode="w+"` makes a file of zeros (ml/data.py:59).  Simplified: the assignments reach the disk in
order and each of them whole. -/
def MemRows.stored (m : MemRows K) (stage : ℕ) (q : ℕ) : K :=
  let r := q / m.width
  let o := q % m.width
  if o < m.fluxes then (if 1 ≤ stage then m.flux r o else 0)
  else if o < m.fluxes + m.labels then (if 2 ≤ stage then m.label r (o - m.fluxes) else 0)
  else (if 3 ≤ stage then m.y r (o - m.fluxes - m.labels) else 0)

/-- The disk changes of `deeponet_memmap` (ml/data.py:59-69). -/
def memmapSteps (name : Name) (m : MemRows K) : Steps (MemFile K) :=
  [fun d => put d name (.whole (.floats (m.samples * m.width) (m.stored 0))),
    fun d => put d name (.whole (.floats (m.samples * m.width) (m.stored 1))),
    fun d => put d name (.whole (.floats (m.samples * m.width) (m.stored 2))),
    fun d => put d name (.whole (.floats (m.samples * m.width) (m.stored 3))),
    fun d => put d (pickleName name) .torn,
    fun d => put d (pickleName name) (.whole (.sizes m.samples m.fluxes m.labels m.outputs))]

/-- `load_deeponet_memmap_metadata` followed by opening the file with `np.memmap(path, shape=(n,), dtype, mode="r")`
(ml/data.py:72-96, 139-144; ml/train.py:361-388): a file shorter than the shape asks for raises ValueError, a longer one
is accepted. -/
def memmapRead (name : Name) (d : Disk (MemFile K)) : Except PyErr (MemRows K) :=
  match load d (pickleName name) with
  | .error e => .error e
  | .ok (.floats _ _) => .error .valueError
  | .ok (.sizes samples fluxes labels outputs) =>
    match load d name with
    | .error e => .error e
    | .ok (.sizes _ _ _ _) => .error .valueError
    | .ok (.floats length v) =>
      let w := fluxes + labels + outputs
      if length < samples * w then .error .valueError
      else .ok ⟨samples, fluxes, labels, outputs, fun r j => v (r * w + j), fun r j => v (r * w + fluxes + j),
        fun r j => v (r * w + fluxes + labels + j)⟩

/-! ### Checkpoints and saved models (ml/train.py:664-775) -/

/-- `torch.save(ckpt, self.ckpt_name)`: in place (ml/train.py:678-685). -/
def checkpointSteps {C : Type} (name : Name) (ckpt : C) : Steps C := save name ckpt

/-- `save_model`: the weights to `model_name.pt`, then the metrics to `model_name-loss-metrics.npz`
(ml/train.py:774-775); weights and metrics are the two sides of a sum. -/
def saveModelSteps {W M : Type} (name : Name) (weights : W) (metrics : M) : Steps (W ⊕ M) :=
  save (name ++ ".pt".toList) (.inl weights) ++ save (name ++ "-loss-metrics.npz".toList) (.inr metrics)

end Discrete1.Files
