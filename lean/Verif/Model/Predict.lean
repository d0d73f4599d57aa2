import Verif.Model.Train

/-!
# Model of `discrete1/ml/predict.py`: model wrappers

Arrays of rows are lists of rows (`X` is the type of one row).  A *transformer* is caller-supplied Python: it
returns an array and may also modify its argument in place, so it is modelled by the pair (returned array,
contents of the argument afterwards).  The wrapped regression models are pure functions of their input
(assumption: `djinn`, `torch` do not write to their inputs).  Conversion to 32-bit floats is not modelled.
-/

namespace Discrete1.Predict

/-- A caller-supplied transformer: (what it returns, what its argument holds afterwards) (ml/predict.py:110-216). -/
abbrev Transformer (X : Type) := List X → List X × List X

/-- `np.tile(label, (n, 1))` for a one-dimensional label (predict.py:207, 419, 529). -/
def tile {X : Type} (label : X) (n : ℕ) : List X := List.replicate n label

/-- `np.hstack((labels, flux))` (predict.py:208, 420, 421); both arguments have the same number of rows. -/
def hstack {K : Type} (labels flux : List (List K)) : List (List K) := List.zipWith (· ++ ·) labels flux

/-- `DJINN.predict` (predict.py:183-215): (prediction, contents of the caller's `flux` afterwards).  The
transformer works on `flux.copy()` (line 204). -/
def djinnPredict {K : Type} (transformer : Option (Transformer (List K)))
    (detransformer : Option (List (List K) → List (List K))) (model : List (List K) → List (List K))
    (label : Option (List K)) (flux : List (List K)) : List (List K) × List (List K) :=
  let x := match transformer with
    | some t => (t flux).1
    | none => flux
  let pred := match label with
    | some l => model (hstack (tile l x.length) x)
    | none => model x
  (match detransformer with
    | some d => d pred
    | none => pred, flux)

/-- `AutoDJINN.predict` (predict.py:376-430): encoder, regression in the latent space, decoder. -/
def autoPredict {K : Type} (transformer : Transformer (List K)) (detransformer : List (List K) → List (List K))
    (encoder model decoder : List (List K) → List (List K)) (label : Option (List K)) (flux : List (List K)) :
    List (List K) × List (List K) :=
  let x := (transformer flux).1
  let decoded := match label with
    | some l =>
      let labels := tile l x.length
      decoder (model (hstack labels (encoder (hstack labels x))))
    | none => decoder (model (encoder x))
  (detransformer decoded, flux)

/-- `DeepONet.predict` (predict.py:500-534): the transformer receives the caller's array itself (line 530).
`TensorDataset` asserts equal numbers of rows (train.py:806-809); the rows go through
`RegressionDeepONet.predict` in batches of `scaled_flux.shape[0]`. -/
def deepPredict {K : Type} (transformer : Transformer (List K)) (detransformer : List (List K) → List (List K))
    (model : List (List K × List K) → List (List K)) (label : List K) (flux : List (List K)) :
    Except PyErr (List (List K)) × List (List K) :=
  let labels := tile label flux.length
  let r := transformer flux
  (if r.1.length ≠ labels.length then .error .assertion
    else (Ml.predict model r.1.length (r.1.zip labels)).map detransformer, r.2)

/-! ### Loading -/

/-- One entry of a sequence given to `load_djinn_models` (ml/predict.py:78-107). -/
inductive PathEntry
  | zero
  | file (name : String)
  deriving DecidableEq

/-- One entry of the list it returns: the integer `0`, or a loaded model (ml/predict.py:78-107). -/
inductive Entry (M : Type)
  | zero
  | model (m : M)

/-- The loop of `load_djinn_models` (predict.py:100-107) over a sequence; `load` is `djinn.load`. -/
def loadSeq {M : Type} (load : String → Except PyErr M) : List PathEntry → Except PyErr (List (Entry M))
  | [] => .ok []
  | .zero :: rest =>
    match loadSeq load rest with
    | .error e => .error e
    | .ok l => .ok (.zero :: l)
  | .file name :: rest =>
    match load name with
    | .error e => .error e
    | .ok m =>
      match loadSeq load rest with
      | .error e => .error e
      | .ok l => .ok (.model m :: l)

/-- The argument of `load_djinn_models` (ml/predict.py:78-107). -/
inductive ModelPath
  | str (name : String)
  | seq (paths : List PathEntry)

/-- What it returns: one model, or a list (ml/predict.py:78-107). -/
inductive Loaded (M : Type)
  | one (m : M)
  | many (l : List (Entry M))

/-- `load_djinn_models` (predict.py:78-107). -/
def loadDjinnModels {M : Type} (load : String → Except PyErr M) : ModelPath → Except PyErr (Loaded M)
  | .str name => (load name).map .one
  | .seq paths => (loadSeq load paths).map .many

/-! ### Choosing the backend -/

/-- The two backends (predict.py:291-358). -/
inductive Backend
  | tensorflow
  | torch
  deriving DecidableEq

/-- Importing `discrete1.ml.predict` (predict.py:59-75) on a machine with the given packages: the pair
(`torch is not None`, `tf is not None`) of module globals.  Line 62 sets `tf = None` whenever torch imports. -/
def importModule (hasTorch hasTf : Bool) : Except PyErr (Bool × Bool) :=
  if hasTorch then .ok (true, false)
  else if hasTf then .ok (false, true)
  else .error .importError

/-- Backend selection of `AutoDJINN.__init__` (predict.py:327-352); `globals` is what `importModule` gave. -/
def selectBackend (globals : Bool × Bool) (backend : String) : Except PyErr Backend :=
  let b := backend.toLower
  if b ≠ "tensorflow" ∧ b ≠ "torch" then .error .valueError
  else if b = "tensorflow" then
    if globals.2 = false then .error .importError else .ok .tensorflow
  else if globals.1 = false then .error .importError else .ok .torch

end Discrete1.Predict
