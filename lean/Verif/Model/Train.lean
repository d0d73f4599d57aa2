import Verif.Model.Basic
import Mathlib.Order.WithBot

/-!
# Model of `ml/train.py` (training loops, losses, prediction) and of `tune.objective`

Everything torch does inside one epoch is a parameter: an arbitrary function of the epoch number and of the
state of the session (weights, optimizer, scheduler, random generators) that returns the new state and the two
losses.  Losses are floats: `none` is NaN, `some ⊤` is `inf`, `some x` any other value; the order on the other
values is an arbitrary linear order.
-/

namespace Discrete1.Ml

/-- A loss value (ml/train.py:614-662). -/
abbrev Loss (K : Type) := Option (WithTop K)

/-- Float `<`: false as soon as one side is NaN (ml/train.py:614-662). -/
def lossLt {K : Type} [LinearOrder K] : Loss K → Loss K → Bool
  | some x, some y => decide (x < y)
  | _, _ => false

/-- The session: `train_one_epoch` (train.py:575-611), `model.state_dict()`, `load_state_dict`,
`optimizer.state_dict()` (with the scheduler's), the loading of both and the loss on the test set. -/
structure Session (S W O K : Type) where
  epoch : ℕ → S → S × Loss K × Loss K
  weights : S → W
  loadWeights : W → S → S
  optState : S → O
  loadOpt : O → S → S
  testLoss : S → Loss K

/-- Variables of the epoch loop (ml/train.py:614-662). -/
structure LoopVars (S W K : Type) where
  st : S
  best : Loss K
  bestW : Option W                -- `best_model_weights`, `None` at first
  trainHist : List (Loss K)
  valHist : List (Loss K)
  last : Option ℕ                 -- the variable `epoch`; unbound before the first iteration

/-- The body of the epoch loop (train.py:639-646, 741-748). -/
def epochBody {S W O K : Type} [LinearOrder K] (e : Session S W O K) (k : ℕ) (v : LoopVars S W K) :
    LoopVars S W K :=
  let r := e.epoch k v.st
  let v := { v with st := r.1, trainHist := v.trainHist ++ [r.2.1], valHist := v.valHist ++ [r.2.2],
                    last := some k }
  if lossLt r.2.2 v.best then { v with best := r.2.2, bestW := some (e.weights r.1) } else v

/-- `for epoch in grange(first, first + todo, stop_event=...)`: the stop flag is read before each epoch
(decorators.py:126-131); `stop k` is what it shows before epoch `k`. -/
def epochLoop {S W O K : Type} [LinearOrder K] (e : Session S W O K) (stop : ℕ → Bool) :
    ℕ → ℕ → LoopVars S W K → LoopVars S W K
  | 0, _, v => v
  | todo + 1, k, v => if stop k then v else epochLoop e stop todo (k + 1) (epochBody e k v)

/-- The dictionary written by `save_checkpoint` (train.py:664-685). -/
structure Checkpoint (W O K : Type) where
  epoch : ℕ
  weights : W
  opt : O
  best : Loss K

/-- `metric_data` (ml/train.py:614-662). -/
structure Metrics (K : Type) where
  trainLoss : List (Loss K)
  valLoss : List (Loss K)
  testLoss : Loss K

/-- What a training call leaves behind: the session, the checkpoint file, `n_epochs`, and the metrics or the
exception (ml/train.py:614-762). -/
structure TrainEnd (S W O K : Type) where
  st : S
  ckpt : Option (Checkpoint W O K)
  nEpochs : ℕ
  result : Except PyErr (Metrics K)

/-- The end of `train` and `continue_training` (train.py:648-662, 750-762): test loss with the weights of the
last epoch, `load_state_dict(best_model_weights)` (TypeError for `None`), checkpoint if a name is set. -/
def finishTraining {S W O K : Type} (e : Session S W O K) (named : Bool) (ckpt : Option (Checkpoint W O K))
    (nEpochs : ℕ) (v : LoopVars S W K) : TrainEnd S W O K :=
  let test := e.testLoss v.st
  match v.bestW with
  | none => ⟨v.st, ckpt, nEpochs, .error .typeError⟩
  | some w =>
    let st := e.loadWeights w v.st
    let m : Metrics K := ⟨v.trainHist, v.valHist, test⟩
    if named then
      match v.last with
      | none => ⟨st, ckpt, nEpochs, .error .unboundLocal⟩
      | some k => ⟨st, some ⟨k + 1, e.weights st, e.optState st, v.best⟩, nEpochs, .ok m⟩
    else ⟨st, ckpt, nEpochs, .ok m⟩

/-- `RegressionDeepONet.train` (train.py:613-662); `named`: `ckpt_name is not None`. -/
def train {S W O K : Type} [LinearOrder K] (e : Session S W O K) (named : Bool) (nEpochs : ℕ)
    (stop : ℕ → Bool) (ckpt : Option (Checkpoint W O K)) (st : S) : TrainEnd S W O K :=
  finishTraining e named ckpt nEpochs
    (epochLoop e stop nEpochs 0 ⟨st, some ⊤, none, [], [], none⟩)

/-- `RegressionDeepONet.continue_training` (train.py:712-762): `load_checkpoint` (687-710), then
`self.n_epochs += epoch_start` and the loop over `range(epoch_start, self.n_epochs)`. -/
def continueTraining {S W O K : Type} [LinearOrder K] (e : Session S W O K) (nEpochs : ℕ) (stop : ℕ → Bool)
    (ckpt : Option (Checkpoint W O K)) (st : S) : TrainEnd S W O K :=
  match ckpt with
  | none => ⟨st, none, nEpochs, .error .fileNotFound⟩
  | some c =>
    let st := e.loadOpt c.opt (e.loadWeights c.weights st)
    let n := nEpochs + c.epoch
    finishTraining e true (some c) n (epochLoop e stop (n - c.epoch) c.epoch ⟨st, c.best, none, [], [], none⟩)

/-! ### Losses and predictions -/

section
variable {F : Type*} [Field F]

/-- The mean over one batch (the default reduction of the torch losses), one number per sample
(ml/train.py:440-452). -/
def batchMean (b : List F) : F := b.sum / (b.length : F)

/-- `_val_batch` (train.py:537-573) and `tune._validate`: every batch adds `loss.item() * flux_batch.size(0)`;
the total is divided by `len(data_loader.dataset)`.  `size b` is `flux_batch.size(0)`. -/
def valLoss (size : List F → ℕ) (len : ℕ) (batches : List (List F)) : Except PyErr F :=
  let total := batches.foldl (fun s b => s + batchMean b * (size b : F)) 0
  if len = 0 then .error .zeroDivision else .ok (total / (len : F))

end

/-- Consecutive batches of a `DataLoader` without shuffling: `fuel` bounds the recursion (ml/train.py:788-821). -/
def loaderBatches {X : Type} (size : ℕ) : ℕ → List X → List (List X)
  | 0, _ => []
  | _ + 1, [] => []
  | fuel + 1, l => l.take size :: loaderBatches size fuel (l.drop size)

/-- `RegressionDeepONet.predict` (train.py:791-826): `DataLoader` refuses a batch size below one, `np.vstack`
refuses an empty list. -/
def predict {X Y : Type} (model : List X → List Y) (size : ℕ) (rows : List X) : Except PyErr (List Y) :=
  if size = 0 then .error .valueError
  else
    let out := (loaderBatches size rows.length rows).map model
    if out.length = 0 then .error .valueError else .ok out.flatten

/-! ### tune.objective -/

/-- `objective` (tune.py:684-702): the metric of the last epoch; `none` for a pruned trial; the variable
`metric` is unbound when there is no epoch. -/
def objectiveLoop {S M : Type} (epoch : ℕ → S → S × M) (prune : ℕ → M → Bool) :
    ℕ → ℕ → S → Option M → Except PyErr (Option M)
  | 0, _, _, none => .error .unboundLocal
  | 0, _, _, some m => .ok (some m)
  | todo + 1, k, st, _ =>
    let r := epoch k st
    if prune k r.2 then .ok none else objectiveLoop epoch prune todo (k + 1) r.1 (some r.2)

/-- `objective` (tune.py:646-702) after the hyperparameters are chosen. -/
def objective {S M : Type} (epoch : ℕ → S → S × M) (prune : ℕ → M → Bool) (epochs : ℕ) (st : S) :
    Except PyErr (Option M) := objectiveLoop epoch prune epochs 0 st none

/-! ### djinn_regression -/

/-- The keyword parameters of scikit-learn's `train_test_split` (ml/train.py:259-316). -/
def splitKeywords : List String := ["test_size", "train_size", "random_state", "shuffle", "stratify"]

/-- A call with keyword arguments: a name that is not a parameter raises TypeError before the body runs
(ml/train.py:259-316). -/
def callKw {A : Type} (params given : List String) (body : Except PyErr A) : Except PyErr A :=
  if given.all (fun k => params.contains k) then body else .error .typeError

/-- `djinn_regression` (train.py:56-160): the split comes first, with `test_size=..., seed=...`; then one model
per pair of tree count and depth is trained and saved under `model_<trees><depth>`. -/
def djinnRegression {D P : Type} (split : Except PyErr D) (fit : D → ℕ → ℕ → P) (trees depth : List ℕ) :
    Except PyErr (List (ℕ × ℕ × P)) := do
  let d ← callKw splitKeywords ["test_size", "seed"] split
  .ok (trees.flatMap fun t => depth.map fun m => (t, m, fit d t m))

end Discrete1.Ml
