import Verif.Model.Tune
import Verif.Model.Trainer

/-!
# Model of `ml/tune.py`: construction of a tuner and one epoch of a trial

torch is the parameter `Ml.Torch` of `Model/Trainer.lean`.
-/

namespace Discrete1.Tune

open Discrete1.Ml (passBatches)

/-- A keyword value: a scalar, a list or tuple, or any other object (e.g. the dictionary `prebuilt`)
(ml/tune.py:121-195). -/
inductive Kw
  | one (v : Value)
  | many (l : List Value)
  | object (id : ℕ)
  deriving DecidableEq

/-- `__valid_kwargs` (tune.py:96-119). -/
def tunerKwargs : List String :=
  ["device", "seed", "test_size", "prebuilt", "max_b_layers", "max_t_layers", "nodes", "fc_activations", "dropout",
   "n_epochs", "batch_size", "optimizer", "learning_rate", "weight_decay", "sched_mode", "sched_factor",
   "sched_patience", "sched_cooldown", "loss_functions", "memmap_file", "train_size", "val_size"]

/-- `kwargs.get(name, default)`; the keys of `kwargs` are distinct (ml/tune.py:163-304). -/
def kwOr (kw : List (String × Kw)) (name : String) (default : Kw) : Kw := (kw.lookup name).getD default

/-- An array argument: its shape and the number of its rows' entries (`None` is `none`) (ml/tune.py:121-195). -/
abbrev Shape := List ℕ

/-- `a.shape[1]`: IndexError for a one-dimensional array (ml/tune.py:121-195). -/
def columns (s : Shape) : Except PyErr ℕ :=
  match s with
  | _ :: c :: _ => .ok c
  | _ => .error .indexError

/-- The attributes a tuner carries: the keyword values it reads (tune.py:163-165, 191, 244-245, 285-304) and the sizes
(tune.py:172-186). -/
structure Tuner where
  memmapFile : Kw
  trainSize : Kw
  valSize : Kw
  device : Kw
  seed : Kw
  testSize : Kw
  prebuilt : Kw
  maxBLayers : Kw
  maxTLayers : Kw
  nodes : Kw
  activations : Kw
  dropout : Kw
  nEpochs : Kw
  batchSize : Kw
  optimizer : Kw
  learningRate : Kw
  weightDecay : Kw
  schedMode : Kw
  schedFactor : Kw
  schedPatience : Kw
  schedCooldown : Kw
  lossFunctions : Kw
  fluxSize : ℕ
  labelsSize : ℕ
  outputSize : ℕ
  deriving DecidableEq

/-- The empty dictionary, `prebuilt`'s default (tune.py:285). -/
def emptyDict : Kw := .object 0

/-- The keyword values (tune.py:163-165, 191, 244-245, 285-304) with the sizes. -/
def readKwargs (kw : List (String × Kw)) (flux labels out : ℕ) : Tuner where
  memmapFile := kwOr kw "memmap_file" (.one .none)
  trainSize := kwOr kw "train_size" (.one (.real (8 / 10)))
  valSize := kwOr kw "val_size" (.one (.real (2 / 10)))
  device := kwOr kw "device" (.one (.str "cpu"))
  seed := kwOr kw "seed" (.one (.nat 3))
  testSize := kwOr kw "test_size" (.one (.real (2 / 10)))
  prebuilt := kwOr kw "prebuilt" emptyDict
  maxBLayers := kwOr kw "max_b_layers" (.one (.nat 5))
  maxTLayers := kwOr kw "max_t_layers" (.one (.nat 5))
  nodes := kwOr kw "nodes" (.many [.nat 64, .nat 128, .nat 256])
  activations := kwOr kw "fc_activations" (.many [.str "ReLU", .str "GELU", .str "Tanh"])
  dropout := kwOr kw "dropout" (.many [.real 0, .real (1 / 10), .real (2 / 10)])
  nEpochs := kwOr kw "n_epochs" (.many [.nat 50, .nat 100, .nat 200])
  batchSize := kwOr kw "batch_size" (.many [.nat 32, .nat 64, .nat 128])
  optimizer := kwOr kw "optimizer" (.many [.str "Adam", .str "SGD"])
  learningRate := kwOr kw "learning_rate" (.many [.real (1 / 10000), .real (1 / 1000), .real (1 / 100)])
  weightDecay := kwOr kw "weight_decay" (.many [.real 0, .real (1 / 100000), .real (1 / 10000)])
  schedMode := kwOr kw "sched_mode" (.many [.none])
  schedFactor := kwOr kw "sched_factor" (.many [.real (1 / 10), .real 1])
  schedPatience := kwOr kw "sched_patience" (.many [.nat 1, .nat 10])
  schedCooldown := kwOr kw "sched_cooldown" (.many [.nat 0, .nat 5])
  lossFunctions := kwOr kw "loss_functions" (.many [.str "MSELoss", .str "L1Loss", .str "SmoothL1Loss"])
  fluxSize := flux
  labelsSize := labels
  outputSize := out

/-- `RegressionDeepONet.__init__` (tune.py:121-195): the warnings issued and the tuner, or an error.  `metadata` is
`load_deeponet_memmap_metadata` (data.py:72-96) without its dtype: samples and the three sizes; `split` is whether
`_process_data` (tune.py:228-264) succeeds on the arrays; it is only called without a file.  A missing array is refused
before anything else is looked at, and no warning is issued then. -/
def initTuner (metadata : Kw → Except PyErr (ℕ × ℕ × ℕ × ℕ)) (split : Kw → Kw → Except PyErr Unit)
    (flux labels y : Option Shape) (kw : List (String × Kw)) : Except PyErr (List String × Tuner) := do
  let file := kwOr kw "memmap_file" (.one .none)
  let unexpected := (kw.map Prod.fst).filter fun k => !tunerKwargs.contains k
  if file = .one .none then
    match flux, labels, y with
    | some f, some l, some t => do
      let a ← columns f
      let b ← columns l
      let c ← columns t
      let s := readKwargs kw a b c
      split s.testSize s.seed
      .ok (unexpected, s)
    | _, _, _ => .error .valueError
  else do
    let (_, a, b, c) ← metadata file
    .ok (unexpected, readKwargs kw a b c)

/-! ### One epoch of a trial -/

variable {S B L : Type}

/-- The loaders and the averaging of a trial (tune.py:674-690, 641): batches of the validation loader, `val_loss`, whether
there is a scheduler. -/
structure TrialData (B L : Type) where
  val : List B
  mean : List (B × L) → L
  scheduler : Bool

/-- `_train_batch` (tune.py:584-610): one update per batch of the training loader. -/
def tuneTrainBatch (t : Ml.Torch S B L) (s : S) : S :=
  let o := t.openTrain s
  (passBatches t.update o.2 o.1).1

/-- `_validate` (tune.py:612-644). -/
def tuneValidate (t : Ml.Torch S B L) (c : TrialData B L) (s : S) : S × L :=
  let r := passBatches t.forward c.val (t.openEval s)
  let m := c.mean r.2
  (if c.scheduler then t.schedule (some m) r.1 else r.1, m)

/-- The body of the training loop of `objective` (tune.py:692-699), without report and pruning. -/
def tuneEpoch (t : Ml.Torch S B L) (c : TrialData B L) (s : S) : S × L :=
  tuneValidate t c (t.setTraining false (tuneTrainBatch t (t.setTraining true s)))

/-- `objective` (tune.py:692-702) with the metrics reported so far: one `trial.report(metric, epoch)` per epoch, then the
pruner is asked. -/
def tuneLoop (t : Ml.Torch S B L) (c : TrialData B L) (prune : List L → Bool) :
    ℕ → S → List L → Option L → Except PyErr (Option L) × List L
  | 0, _, reports, none => (.error .unboundLocal, reports)
  | 0, _, reports, some m => (.ok (some m), reports)
  | todo + 1, s, reports, _ =>
    let r := tuneEpoch t c s
    let reports := reports ++ [r.2]
    if prune reports then (.ok none, reports) else tuneLoop t c prune todo r.1 reports (some r.2)

end Discrete1.Tune
