import Verif.Model.Datasets
import Mathlib.Algebra.Order.Floor.Semiring
import Mathlib.Data.Rat.Floor

/-!
# Model of the in-memory data sets of `ml/train.py` and `ml/tune.py`

`sklearn.model_selection.train_test_split` is modelled from its documentation (it is not in the repository): a
seeded permutation of the row numbers, the first `ceil(test_size * n)` of which are the test part, the others
the training part.  The permutation (`np.random.RandomState(seed).permutation(n)`) is the parameter `perm`: for a
given seed a function of the number of rows.  Fractions are exact (`ceil` and `int` of the float products agree
with the exact ones for the fractions used here).
-/

namespace Discrete1.Ml

/-- `train_test_split(a, test_size=q, random_state=seed)` on the rows of one array; ValueError when no row is left for
training (called at data.py:51-56, train.py:282-292, tune.py:245-253). -/
def trainTestSplit {R : Type} (perm : ℕ → List ℕ) (q : ℚ) (l : List R) : Except PyErr (List R × List R) :=
  let n := l.length
  let nTest := ⌈q * (n : ℚ)⌉.toNat
  if n - nTest = 0 then .error .valueError
  else
    match takeRows l ((perm n).take nTest), takeRows l (((perm n).drop nTest).take (n - nTest)) with
    | .ok test, .ok train => .ok (train, test)
    | .error e, _ => .error e
    | _, .error e => .error e

/-- The same call on three arrays (flux, labels, y): ValueError for different numbers of rows, otherwise the
same rows of each (ml/train.py:259-316). -/
def trainTestSplit3 {F L Y : Type} (perm : ℕ → List ℕ) (q : ℚ) (flux : List F) (labels : List L) (y : List Y) :
    Except PyErr ((List F × List L × List Y) × (List F × List L × List Y)) :=
  if labels.length ≠ flux.length ∨ y.length ≠ flux.length then .error .valueError
  else
    match trainTestSplit perm q flux, trainTestSplit perm q labels, trainTestSplit perm q y with
    | .ok f, .ok l, .ok y => .ok ((f.1, l.1, y.1), (f.2, l.2, y.2))
    | .error e, _, _ => .error e
    | _, .error e, _ => .error e
    | _, _, .error e => .error e

/-- `TensorDataset(flux, labels, y)`: row `i` is the triple of the rows `i` (train.py:294-308, tune.py:255-264). -/
def tensorDataset {F L Y : Type} (castF : F → F) (castL : L → L) (castY : Y → Y) (a : List F × List L × List Y) :
    List (Sample F L Y) :=
  zipRows (a.1.map castF) (a.2.1.map castL) (a.2.2.map castY)

/-- `RegressionDeepONet.process_data` (train.py:259-316): training, validation and test rows. -/
def processData {F L Y : Type} (perm : ℕ → List ℕ) (castF : F → F) (castL : L → L) (castY : Y → Y)
    (flux : List F) (labels : List L) (y : List Y) :
    Except PyErr (List (Sample F L Y) × List (Sample F L Y) × List (Sample F L Y)) :=
  match trainTestSplit3 perm (2 / 10) flux labels y with
  | .error e => .error e
  | .ok (rest, test) =>
    match trainTestSplit3 perm (25 / 100) rest.1 rest.2.1 rest.2.2 with
    | .error e => .error e
    | .ok (train, val) =>
      .ok (tensorDataset castF castL castY train, tensorDataset castF castL castY val,
        tensorDataset castF castL castY test)

/-- `_process_data` of the tuner (tune.py:228-264): training and validation rows for the fraction `test_size`. -/
def tuneProcessData {F L Y : Type} (perm : ℕ → List ℕ) (testSize : ℚ) (castF : F → F) (castL : L → L)
    (castY : Y → Y) (flux : List F) (labels : List L) (y : List Y) :
    Except PyErr (List (Sample F L Y) × List (Sample F L Y)) :=
  match trainTestSplit3 perm testSize flux labels y with
  | .error e => .error e
  | .ok (train, val) => .ok (tensorDataset castF castL castY train, tensorDataset castF castL castY val)

end Discrete1.Ml
