import Verif.Model.Train

/-!
# Model of `ml/train.py`: construction of a trainer, one epoch, saved models

torch itself is a parameter (`Torch`): an arbitrary state (weights, buffers, mode of the model, optimizer, scheduler,
random generators) with the operations the trainer calls.
-/

namespace Discrete1.Ml

/-! ### `RegressionDeepONet.__init__` (train.py:176-257) -/

/-- A keyword value (ml/train.py:192-257). -/
inductive Arg
  | none
  | bool (b : Bool)
  | num (q : ℚ)
  | str (s : String)
  | params (l : List (String × ℚ))   -- a dictionary
  | object (id : ℕ)                  -- any other object, e.g. a loss or a scheduler
  deriving DecidableEq

/-- `__valid_kwargs` (train.py:177-190). -/
def validKwargs : List String :=
  ["n_epochs", "batch_size", "loss_fn", "optimizer", "lr", "weight_decay", "lr_scheduler", "lr_scheduler_params",
   "checkpoint", "device", "LOUD", "tensorboard"]

/-- `kwargs.get(name, default)`; the keys of `kwargs` are distinct (ml/train.py:244-255). -/
def kwGet (kw : List (String × Arg)) (name : String) (default : Arg) : Arg := (kw.lookup name).getD default

/-- The attributes set by the constructor (ml/train.py:192-257). -/
structure Trainer where
  nEpochs : Arg
  batchSize : Arg
  lossFn : Arg
  optimizer : Arg
  lr : Arg
  weightDecay : Arg
  lrScheduler : Arg
  lrSchedulerParams : Arg
  checkpoint : Arg
  device : Arg
  loud : Arg
  writer : Arg
  deriving DecidableEq

/-- The constructor (train.py:239-257): the warnings (one per unexpected name) and the attributes.  `torch.device` and
`SummaryWriter` wrap their argument and are not distinguished from it. -/
def initTrainer (kw : List (String × Arg)) : List String × Trainer :=
  ((kw.map Prod.fst).filter fun k => !validKwargs.contains k,
   { nEpochs := kwGet kw "n_epochs" (.num 100)
     batchSize := kwGet kw "batch_size" (.num 32)
     lossFn := kwGet kw "loss_fn" (.str "MSELoss")
     optimizer := kwGet kw "optimizer" (.str "Adam")
     lr := kwGet kw "lr" (.num (1 / 1000))
     weightDecay := kwGet kw "weight_decay" (.num 0)
     lrScheduler := kwGet kw "lr_scheduler" .none
     lrSchedulerParams := kwGet kw "lr_scheduler_params" (.params [])
     checkpoint := kwGet kw "checkpoint" .none
     device := kwGet kw "device" (.str "cpu")
     loud := kwGet kw "LOUD" (.bool true)
     writer := kwGet kw "tensorboard" .none })

/-- A library namespace (`torch.optim`, `torch.optim.lr_scheduler`, `torch.nn`): the keyword parameters of each class
(ml/train.py:405-452). -/
abbrev Registry := String → Option (List String)

/-- `getattr(module, name)`: TypeError unless `name` is a string, AttributeError if there is no such class
(ml/train.py:405-452). -/
def getClass (r : Registry) : Arg → Except PyErr (String × List String)
  | .str s => match r s with
    | some ps => .ok (s, ps)
    | none => .error .attributeError
  | _ => .error .typeError

/-- An object built from a class with keyword arguments, or one handed in by the user (ml/train.py:405-452). -/
inductive Built
  | made (cls : String) (kwargs : List (String × Arg))
  | given (a : Arg)
  deriving DecidableEq

/-- Calling a class with keyword arguments (ml/train.py:405-452). -/
def build (r : Registry) (name : Arg) (kwargs : List (String × Arg)) : Except PyErr Built := do
  let c ← getClass r name
  callKw c.2 (kwargs.map Prod.fst) (.ok (.made c.1 kwargs))

/-- `_init_optimizer` (train.py:405-418). -/
def initOptimizer (optim : Registry) (t : Trainer) : Except PyErr Built :=
  build optim t.optimizer [("lr", t.lr), ("weight_decay", t.weightDecay)]

/-- `_init_lr_scheduler` (train.py:420-438); `**self.lr_scheduler_params` needs a dictionary. -/
def initLrScheduler (sched : Registry) (t : Trainer) : Except PyErr (Option Built) :=
  match t.lrScheduler with
  | .none => .ok none
  | name => do
    let c ← getClass sched name
    match t.lrSchedulerParams with
    | .params l => (callKw c.2 (l.map Prod.fst) (.ok (.made c.1 (l.map fun x => (x.1, .num x.2))))).map some
    | _ => .error .typeError

/-- `_init_loss_fn` (train.py:440-452). -/
def initLossFn (nn : Registry) (t : Trainer) : Except PyErr Built :=
  match t.lossFn with
  | .str s => build nn (.str s) []
  | a => .ok (.given a)

/-! ### One epoch -/

/-- What the trainer asks of torch; `S` is the whole state, `B` a batch, `L` a loss (a float)
(ml/train.py:501-662). -/
structure Torch (S B L : Type) where
  training : S → Bool                 -- `model.training`
  setTraining : Bool → S → S          -- `model.train()` / `model.eval()`
  openTrain : S → S × List B          -- start iterating the training loader (it shuffles)
  openEval : S → S                    -- start iterating an unshuffled loader (advances the generator)
  update : B → S → S × L              -- zero_grad, forward, loss, backward, optimizer.step; `loss.item()`
  forward : B → S → S × L             -- forward pass and loss under `no_grad`
  schedule : Option L → S → S         -- `scheduler.step(val_loss)` / `scheduler.step()`

/-- The losses a pass over batches collects (ml/train.py:501-573). -/
def passBatches {S B L : Type} (f : B → S → S × L) : List B → S → S × List (B × L)
  | [], s => (s, [])
  | b :: bs, s =>
    let r := f b s
    let q := passBatches f bs r.1
    (q.1, (b, r.2) :: q.2)

/-- Which scheduler is stepped: none, `ReduceLROnPlateau`, or another one (ml/train.py:537-573). -/
inductive Scheduler
  | off
  | plateau
  | other
  deriving DecidableEq

/-- The scheduler that `_val_batch` steps (train.py:567-571): `_init_lr_scheduler` returns `None` exactly when none is
asked for, and the name decides how it is stepped. -/
def schedulerOf (t : Trainer) : Scheduler :=
  match t.lrScheduler with
  | .none => .off
  | a => if a = .str "ReduceLROnPlateau" then .plateau else .other

/-- Data of a training call: the batches of the validation and test loaders, the averaging of the collected losses
(`loss.item() * flux_batch.size(0)` added up and divided by `len(loader.dataset)`, floats), the scheduler
(ml/train.py:614-662). -/
structure Setup (B L : Type) where
  val : List B
  test : List B
  mean : List (B × L) → L
  meanTrain : List (B × L) → L
  scheduler : Scheduler

variable {S B L : Type}

/-- `_train_batch` (train.py:501-535). -/
def trainBatch (t : Torch S B L) (c : Setup B L) (s : S) : S × L :=
  let o := t.openTrain s
  let r := passBatches t.update o.2 o.1
  (r.1, c.meanTrain r.2)

/-- `_val_batch` without scheduler (train.py:537-566). -/
def evalBatches (t : Torch S B L) (c : Setup B L) (data : List B) (s : S) : S × L :=
  let r := passBatches t.forward data (t.openEval s)
  (r.1, c.mean r.2)

/-- `_val_batch` (train.py:537-573) with the scheduler of the trainer. -/
def valBatch (t : Torch S B L) (c : Setup B L) (s : S) : S × L :=
  let r := evalBatches t c c.val s
  match c.scheduler with
  | .off => r
  | .plateau => (t.schedule (some r.2) r.1, r.2)
  | .other => (t.schedule none r.1, r.2)

/-- `train_one_epoch` (train.py:575-611); logging is left out. -/
def trainOneEpoch (t : Torch S B L) (c : Setup B L) (s : S) : S × L × L :=
  let a := trainBatch t c (t.setTraining true s)
  let b := valBatch t c (t.setTraining false a.1)
  (b.1, a.2, b.2)

/-- The session that `train` and `continue_training` run (both data sets non-empty, so that no mean divides by zero;
see C86 for the empty ones).  The test pass (train.py:648-651) uses no scheduler. -/
def sessionOf {W O K : Type} (t : Torch S B (Loss K)) (c : Setup B (Loss K)) (weights : S → W) (loadWeights : W → S → S)
    (optState : S → O) (loadOpt : O → S → S) : Session S W O K where
  epoch := fun _ s => trainOneEpoch t c s
  weights := weights
  loadWeights := loadWeights
  optState := optState
  loadOpt := loadOpt
  testLoss := fun s => (evalBatches t c c.test (t.setTraining false s)).2

/-! ### Saved models (train.py:764-786) -/

/-- Contents of a file (ml/train.py:664-786). -/
inductive Stored (W M C : Type)
  | weights (w : W)
  | metrics (m : M)
  | checkpoint (c : C)

/-- `save_model(model_name)`: the weights first, then the metrics; `metric_data` only exists after a training call
(ml/train.py:764-775). -/
def saveModel {W M C : Type} (name : String) (w : W) (metrics : Option M) (fs : String → Option (Stored W M C)) :
    (String → Option (Stored W M C)) × Except PyErr Unit :=
  let fs1 := Function.update fs (name ++ ".pt") (some (.weights w))
  match metrics with
  | none => (fs1, .error .attributeError)
  | some m => (Function.update fs1 (name ++ "-loss-metrics.npz") (some (.metrics m)), .ok ())

/-- `load_model(model_name)`: the weights in `model_name.pt`; a checkpoint is not a `state_dict` of the model
(ml/train.py:777-786). -/
def loadModel {W M C : Type} (name : String) (fs : String → Option (Stored W M C)) : Except PyErr W :=
  match fs (name ++ ".pt") with
  | none => .error .fileNotFound
  | some (.weights w) => .ok w
  | some _ => .error .runtimeError

end Discrete1.Ml
