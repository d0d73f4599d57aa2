import Verif.Model.Basic
import Mathlib.Algebra.Order.Floor.Defs
import Mathlib.Algebra.Order.Floor.Ring

/-!
# Model of `ml/data.py` and of the code that cuts memmap files into data sets

A memmap file is the list of its rows.  Row numbers, not row contents, are what the data sets deal with, so a
batch is the list of the row numbers it carries.
-/

namespace Discrete1.Ml

/-! ### DeepONetDataset -/

/-- The fields of a `DeepONetDataset` that matter (data.py:125-138). -/
structure Dataset where
  shape : ℕ       -- rows in the file
  batch : ℕ       -- batch_size
  start : ℕ       -- start_idx
  stop : ℕ        -- end_idx after `end_idx or shape[0]`
  batches : ℤ     -- num_batches, may be negative

/-- `DeepONetDataset.__init__` (data.py:102-138): `self.end_idx = end_idx or shape[0]`, so both `None` and `0`
are replaced by the number of rows; `//` by zero raises. -/
def mkDataset (shape batch start : ℕ) (stop? : Option ℕ) : Except PyErr Dataset :=
  let stop := match stop? with
    | none => shape
    | some 0 => shape
    | some (e + 1) => e + 1
  if batch = 0 then .error .zeroDivision
  else .ok ⟨shape, batch, start, stop, ((stop : ℤ) - (start : ℤ)) / (batch : ℤ)⟩

/-- `DeepONetDataset.__len__` (data.py:147-155); Python refuses a negative length. -/
def Dataset.len (d : Dataset) : Except PyErr ℕ :=
  if d.batches < 0 then .error .valueError else .ok d.batches.toNat

/-- The rows of the slice `self._data[start:end]` in `__getitem__` (data.py:174-176); a numpy slice is cut at
the end of the file. -/
def Dataset.rows (d : Dataset) (b : ℕ) : List ℕ :=
  (List.range d.shape).filter fun r =>
    decide (d.start + b * d.batch ≤ r ∧ r < d.start + b * d.batch + d.batch)

/-- `DeepONetDataset.__getitem__` (data.py:157-182): no index is refused. -/
def Dataset.getItem (d : Dataset) (b : ℕ) : Except PyErr (List ℕ) := .ok (d.rows b)

/-- `for item in x` for an object with `__getitem__` but no `__iter__` (Python's sequence protocol): index
0, 1, ... until IndexError.  The first `fuel` items; `none` when the loop has not ended by then, `some (some e)`
when it raised `e` (iteration over ml/data.py:99-182). -/
def seqIter {α : Type} (get : ℕ → Except PyErr α) : ℕ → ℕ → List α × Option (Option PyErr)
  | 0, _ => ([], none)
  | fuel + 1, i =>
    match get i with
    | .ok x => let r := seqIter get fuel (i + 1); (x :: r.1, r.2)
    | .error .indexError => ([], some none)
    | .error e => ([], some (some e))

/-- What a `DataLoader` over the data set serves, in the order of the sampler's permutation of
`range(len(dataset))` (train.py:391-401, data.py:185-217; `torch.randperm` is the parameter `order`). -/
def Dataset.served (d : Dataset) (order : List ℕ) : List ℕ := order.flatMap d.rows

variable {K : Type*} [Field K] [LinearOrder K] [FloorRing K]

/-- Sizes and data sets of `RegressionDeepONet.process_data_memmap` (train.py:361-388).  `int(x)` is the floor
(fractions are not negative). -/
def processDataMemmap (n batch : ℕ) (trainSize valSize : K) :
    Except PyErr (Dataset × Dataset × Dataset) := do
  let trainEnd := ⌊trainSize * (n : K)⌋.toNat
  let valEnd := ⌊(trainSize + valSize) * (n : K)⌋.toNat
  let train ← mkDataset n batch 0 (some trainEnd)
  let val ← mkDataset n batch trainEnd (some valEnd)
  let test ← mkDataset n batch valEnd (some n)
  .ok (train, val, test)

/-- `_create_memmap_datasets` (tune.py:197-226). -/
def createMemmapDatasets (n batch : ℕ) (trainSize valSize : K) : Except PyErr (Dataset × Dataset) := do
  let trainEnd := ⌊trainSize * (n : K)⌋.toNat
  let valEnd := ⌊(trainSize + valSize) * (n : K)⌋.toNat
  let trainSamples := trainEnd
  let valSamples := valEnd - trainEnd          -- `max(0, ...)`
  let maxBatch := min trainSamples valSamples
  if maxBatch < 1 then throw .valueError
  let effective := min batch maxBatch
  let train ← mkDataset n effective 0 (some trainEnd)
  let val ← mkDataset n effective trainEnd (some valEnd)
  .ok (train, val)

/-! ### deeponet_memmap -/

/-- `str.replace(old, new)` on characters, for a nonempty `old`: occurrences are replaced from the left and do
not overlap (ml/data.py:72-96). -/
def pyReplace (old new : List Char) : ℕ → List Char → List Char
  | 0, s => s
  | _ + 1, [] => []
  | fuel + 1, c :: s =>
    if old.isPrefixOf (c :: s) then new ++ pyReplace old new fuel ((c :: s).drop old.length)
    else c :: pyReplace old new fuel s

/-- `filename.replace("memmap", "pickle")` (data.py:67, 85). -/
def pickleName (filename : List Char) : List Char :=
  pyReplace "memmap".toList "pickle".toList filename.length filename

/-- A row of the file (ml/data.py:37-48). -/
structure Sample (F L Y : Type) where
  flux : F
  labels : L
  y : Y

/-- What a file holds (ml/data.py:16-66). -/
inductive Content (F L Y : Type)
  | rows (data : List (Sample F L Y))
  | metadata (samples fluxShape labelsShape yShape : ℕ)
  | other

/-- The files by name (ml/data.py:16-96). -/
abbrev Disk (F L Y : Type) := List Char → Option (Content F L Y)

/-- Fancy indexing `a[idx]` of an array of rows (ml/data.py:60-62). -/
def takeRows {R : Type} (a : List R) : List ℕ → Except PyErr (List R)
  | [] => .ok []
  | i :: idx =>
    match a[i]? with
    | none => .error .indexError
    | some r => do return r :: (← takeRows a idx)

/-- `np.concatenate((train_idx, val_idx, test_idx))` of the two splits (data.py:48-56).
`model_selection.train_test_split` is the parameter `split` (fraction for the test part, then the indices);
it may raise. -/
def splitIndex (split : ℚ → List ℕ → Except PyErr (List ℕ × List ℕ)) (samples : ℕ) :
    Except PyErr (List ℕ) := do
  let (train, test) ← split (2 / 10) (List.range samples)
  let (train, val) ← split (25 / 100) train
  .ok (train ++ val ++ test)

/-- Rows of the structured array (data.py:58-61). -/
def zipRows {F L Y : Type} : List F → List L → List Y → List (Sample F L Y)
  | f :: fs, l :: ls, y :: ys => ⟨f, l, y⟩ :: zipRows fs ls ys
  | _, _, _ => []

/-- `deeponet_memmap` (data.py:16-69).  `cast` are the conversions to float32; the shapes are parameters.  The
number of samples is that of `flux`. -/
def deeponetMemmap {F L Y : Type} (split : ℚ → List ℕ → Except PyErr (List ℕ × List ℕ))
    (castF : F → F) (castL : L → L) (castY : Y → Y) (filename : List Char)
    (flux : List F) (labels : List L) (y : List Y) (fluxShape labelsShape yShape : ℕ) (disk : Disk F L Y) :
    Except PyErr (Disk F L Y) := do
  let idx ← splitIndex split flux.length
  let f ← takeRows flux idx
  let l ← takeRows labels idx
  let yy ← takeRows y idx
  let disk := Function.update disk filename
    (some (.rows (zipRows (f.map castF) (l.map castL) (yy.map castY))))
  let disk := Function.update disk (pickleName filename)
    (some (.metadata flux.length fluxShape labelsShape yShape))
  .ok disk

/-- `load_deeponet_memmap_metadata` (data.py:72-96): the four numbers of the companion file. -/
def loadMetadata {F L Y : Type} (disk : Disk F L Y) (filename : List Char) :
    Except PyErr (ℕ × ℕ × ℕ × ℕ) :=
  match disk (pickleName filename) with
  | some (.metadata n f l y) => .ok (n, f, l, y)
  | some _ => .error .valueError       -- not a pickle
  | none => .error .fileNotFound

end Discrete1.Ml
