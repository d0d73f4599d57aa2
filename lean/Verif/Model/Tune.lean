import Verif.Model.Basic
import Mathlib.Data.Rat.Floor

/-!
# Model of the search of `ml/tune.py`: suggestions, networks, schedulers, studies

A trial is a program that asks the study for values (`Prog`).  `optuna` is modelled from its documentation (it is not
in the repository): a suggestion is answered by the sampler with a value of the requested distribution; the study
remembers the distribution of every parameter name and refuses (ValueError) a request of another kind, and a
categorical request with other choices; a distribution without a value is refused (ValueError).  `torch` is modelled
by what it accepts (names, probabilities, the factor of the scheduler) and by the shapes of the tensors.  Parameter
names are the constructors of `Param` (the strings of the source are different for different constructors or
arguments).  Training itself is in `Model/Train.lean`.
-/

namespace Discrete1.Tune

/-- The two subnetworks: `label` is "b" (branch) or "t" (trunk) (tune.py:389-394). -/
inductive Side
  | branch
  | trunk
  deriving DecidableEq

/-- The names of the suggestions (tune.py:347-367, 387-389, 441-452, 486-494, 516-531, 555-557, 669-672). -/
inductive Param
  | numLayers (s : Side)
  | layerNodes (s : Side) (i : ℕ)
  | layerActivation (s : Side) (i : ℕ)
  | layerDropout (s : Side) (i : ℕ)
  | latent
  | optimizer
  | learningRate
  | weightDecay
  | schedMode
  | schedFactor
  | schedPatience
  | schedCooldown
  | lossFunction
  | nEpochs
  | batchSize
  deriving DecidableEq

/-- The values of the search lists (ml/tune.py:285-325). -/
inductive Value
  | none
  | nat (n : ℕ)
  | int (n : ℤ)
  | real (q : ℚ)
  | str (s : String)
  deriving DecidableEq

/-- `CategoricalDistribution(choices)`, `IntDistribution(low, high)`, `FloatDistribution(low, high)`: the requests of
`trial.suggest_categorical`, `suggest_int`, `suggest_float` (ml/tune.py:327-559). -/
inductive Dist
  | categorical (choices : List Value)
  | int (low high : ℤ)
  | float (low high : ℚ)
  deriving DecidableEq

/-- A distribution can be built: choices are not empty, `low <= high` (optuna, as used in ml/tune.py:327-559). -/
def Dist.valid : Dist → Bool
  | .categorical c => !c.isEmpty
  | .int lo hi => decide (lo ≤ hi)
  | .float lo hi => decide (lo ≤ hi)

/-- The values a sampler may answer with; both ends of a range belong to it
(optuna, as used in ml/tune.py:327-559). -/
def Dist.mem : Dist → Value → Prop
  | .categorical c, v => v ∈ c
  | .int lo hi, v => ∃ n, v = .int n ∧ lo ≤ n ∧ n ≤ hi
  | .float lo hi, v => ∃ q, v = .real q ∧ lo ≤ q ∧ q ≤ hi

/-- `check_distribution_compatibility` of optuna (optuna, as used in ml/tune.py:327-559). -/
def Dist.compatible : Dist → Dist → Bool
  | .categorical a, .categorical b => decide (a = b)
  | .int _ _, .int _ _ => true
  | .float _ _, .float _ _ => true
  | _, _ => false

/-- A program asking for suggestions (ml/tune.py:327-559). -/
inductive Prog (A : Type) where
  | ret (a : A)
  | raise (e : PyErr)
  | suggest (p : Param) (d : Dist) (k : Value → Prog A)

/-- Sequencing (ml/tune.py:377-401). -/
def Prog.bind {A B : Type} : Prog A → (A → Prog B) → Prog B
  | .ret a, f => f a
  | .raise e, _ => .raise e
  | .suggest p d k, f => .suggest p d fun v => (k v).bind f

/-- What a sampler answers, for one trial (ml/tune.py:327-559). -/
abbrev Sampler := Param → Dist → Value

/-- What the study remembers of the parameter names (ml/tune.py:731-739). -/
abbrev Study := Param → Option Dist

/-- The study and the parameters of the running trial, latest first (ml/tune.py:646-702). -/
structure TrialState where
  known : Study
  params : List (Param × Value)

/-- Running a trial: every suggestion builds its distribution, draws, and stores the pair (the study checks it
against what it knows).  The state survives a failure (ml/tune.py:646-702). -/
def Prog.run {A : Type} (draw : Sampler) : Prog A → TrialState → Except PyErr A × TrialState
  | .ret a, st => (.ok a, st)
  | .raise e, st => (.error e, st)
  | .suggest p d k, st =>
    if d.valid = false then (.error .valueError, st)
    else
      match st.known p with
      | some d' =>
        if d'.compatible d = false then (.error .valueError, st)
        else (k (draw p d)).run draw ⟨Function.update st.known p (some d), (p, draw p d) :: st.params⟩
      | none => (k (draw p d)).run draw ⟨Function.update st.known p (some d), (p, draw p d) :: st.params⟩

/-! ### Networks -/

/-- `nn.Linear(i, o)`, `getattr(nn, name)()`, `nn.Dropout(p)` (ml/tune.py:327-375). -/
inductive Layer
  | linear (i o : ℕ)
  | activation (name : String)
  | dropout (p : ℚ)
  deriving DecidableEq

/-- `DeepONet(branch, trunk, latent, out)` (tune.py:746-775). -/
structure Onet where
  branch : List Layer
  trunk : List Layer
  latent : ℕ
  out : ℕ
  deriving DecidableEq

/-- What `torch` offers under the names of the search lists (ml/tune.py:327-559). -/
structure Torch where
  activation : String → Bool
  optimizer : String → Bool
  loss : String → Bool

/-- `self.search_space` (tune.py:306-325). -/
structure Space where
  maxBLayers : ℕ
  maxTLayers : ℕ
  nodes : List ℕ
  activations : List String
  dropout : List ℚ
  nEpochs : List ℕ
  batchSize : List ℕ
  optimizer : List String
  learningRate : List ℚ
  weightDecay : List ℚ
  schedMode : List (Option String)
  schedFactor : ℚ × ℚ
  schedPatience : ℤ × ℤ
  schedCooldown : ℤ × ℤ
  lossFunctions : List String

/-- The defaults (tune.py:285-304). -/
def Space.default : Space where
  maxBLayers := 5
  maxTLayers := 5
  nodes := [64, 128, 256]
  activations := ["ReLU", "GELU", "Tanh"]
  dropout := [0, 1 / 10, 2 / 10]
  nEpochs := [50, 100, 200]
  batchSize := [32, 64, 128]
  optimizer := ["Adam", "SGD"]
  learningRate := [1 / 10000, 1 / 1000, 1 / 100]
  weightDecay := [0, 1 / 100000, 1 / 10000]
  schedMode := [none]
  schedFactor := (1 / 10, 1)
  schedPatience := (1, 10)
  schedCooldown := (0, 5)
  lossFunctions := ["MSELoss", "L1Loss", "SmoothL1Loss"]

/-- `search_space[f"max_{label}_layers"]` (tune.py:346). -/
def Space.maxLayers (s : Space) : Side → ℕ
  | .branch => s.maxBLayers
  | .trunk => s.maxTLayers

/-- A suggestion from a list of numbers, strings, ...: the answer is decoded (a foreign value would be a
TypeError in the callee) (ml/tune.py:327-375, 659-670). -/
def suggestNat {A : Type} (p : Param) (l : List ℕ) (k : ℕ → Prog A) : Prog A :=
  .suggest p (.categorical (l.map .nat)) fun v => match v with | .nat n => k n | _ => .raise .typeError

/-- See `suggestNat` (ml/tune.py:327-375, 542-559). -/
def suggestStr {A : Type} (p : Param) (l : List String) (k : String → Prog A) : Prog A :=
  .suggest p (.categorical (l.map .str)) fun v => match v with | .str s => k s | _ => .raise .typeError

/-- See `suggestNat` (ml/tune.py:327-375, 471-499). -/
def suggestReal {A : Type} (p : Param) (l : List ℚ) (k : ℚ → Prog A) : Prog A :=
  .suggest p (.categorical (l.map .real)) fun v => match v with | .real q => k q | _ => .raise .typeError

/-- `suggest_int` (ml/tune.py:501-540). -/
def suggestInt {A : Type} (p : Param) (lo hi : ℤ) (k : ℤ → Prog A) : Prog A :=
  .suggest p (.int lo hi) fun v => match v with | .int n => k n | _ => .raise .typeError

/-- `suggest_float` (ml/tune.py:501-540). -/
def suggestFloat {A : Type} (p : Param) (lo hi : ℚ) (k : ℚ → Prog A) : Prog A :=
  .suggest p (.float lo hi) fun v => match v with | .real q => k q | _ => .raise .typeError

/-- The activation and the dropout layer after a linear one (tune.py:357-370, 440-455): `getattr(nn, name)` raises
AttributeError for an unknown name; `nn.Dropout(p)` raises ValueError for `p > 1`. -/
def hiddenTail (t : Torch) (s : Space) (side : Side) (i : ℕ) (k : List Layer → Prog (List Layer)) :
    Prog (List Layer) :=
  suggestStr (.layerActivation side (i + 1)) s.activations fun name =>
    if t.activation name = false then .raise .attributeError
    else
      suggestReal (.layerDropout side (i + 1)) s.dropout fun rate =>
        if 0 < rate then
          if 1 < rate then .raise .valueError else k [.activation name, .dropout rate]
        else k [.activation name]

/-- The loop of `_init_nn_model` (tune.py:350-372) from layer `i` on, `todo` layers left, then the last layer
(line 374). -/
def nnLayers (t : Torch) (s : Space) (side : Side) (onetOut : ℕ) : ℕ → ℕ → ℕ → List Layer → Prog (List Layer)
  | 0, _, inDim, layers => .ret (layers ++ [.linear inDim onetOut])
  | todo + 1, i, inDim, layers =>
    suggestNat (.layerNodes side (i + 1)) s.nodes fun outDim =>
      hiddenTail t s side i fun tail =>
        nnLayers t s side onetOut todo (i + 1) outDim (layers ++ .linear inDim outDim :: tail)

/-- `_init_nn_model` (tune.py:327-375). -/
def initNnModel (t : Torch) (s : Space) (inDim onetOut : ℕ) (side : Side) : Prog (List Layer) :=
  suggestInt (.numLayers side) 1 (s.maxLayers side) fun n => nnLayers t s side onetOut n.toNat 0 inDim []

/-- `_init_onet_model` (tune.py:377-401). -/
def initOnetModel (t : Torch) (s : Space) (fluxSize labelsSize outputSize : ℕ) : Prog Onet :=
  suggestNat .latent s.nodes fun onetOut =>
    (initNnModel t s fluxSize onetOut .branch).bind fun branch =>
      (initNnModel t s labelsSize onetOut .trunk).bind fun trunk =>
        .ret ⟨branch, trunk, onetOut, outputSize⟩

/-- The dictionary `prebuilt`; a missing key is `none` (ml/tune.py:403-469). -/
structure Prebuilt where
  maxLayers : Side → Option ℕ
  nodes : Side → Option (List ℕ)
  onetOutDim : Option ℕ

/-- `d[key]` (ml/tune.py:403-469). -/
def getKey {A B : Type} (x : Option A) (k : A → Prog B) : Prog B :=
  match x with
  | some a => k a
  | none => .raise .keyError

/-- The loop of `_init_prebuilt_nn_model` (tune.py:435-457) and its last layer (line 459): `nodes[i]` raises
IndexError. -/
def prebuiltLayers (t : Torch) (s : Space) (pre : Prebuilt) (side : Side) (nodes : List ℕ) :
    ℕ → ℕ → ℕ → List Layer → Prog (List Layer)
  | 0, _, inDim, layers => getKey pre.onetOutDim fun o => .ret (layers ++ [.linear inDim o])
  | todo + 1, i, inDim, layers =>
    match nodes[i]? with
    | none => .raise .indexError
    | some outDim =>
      hiddenTail t s side i fun tail =>
        prebuiltLayers t s pre side nodes todo (i + 1) outDim (layers ++ .linear inDim outDim :: tail)

/-- `_init_prebuilt_nn_model` (tune.py:403-461). -/
def initPrebuiltNnModel (t : Torch) (s : Space) (pre : Prebuilt) (inDim : ℕ) (side : Side) : Prog (List Layer) :=
  getKey (pre.maxLayers side) fun n => getKey (pre.nodes side) fun nodes =>
    prebuiltLayers t s pre side nodes n 0 inDim []

/-- `_init_prebuilt_onet_model` (tune.py:463-483). -/
def initPrebuiltOnetModel (t : Torch) (s : Space) (pre : Prebuilt) (fluxSize labelsSize outputSize : ℕ) :
    Prog Onet :=
  (initPrebuiltNnModel t s pre fluxSize .branch).bind fun branch =>
    (initPrebuiltNnModel t s pre labelsSize .trunk).bind fun trunk =>
      getKey pre.onetOutDim fun o => .ret ⟨branch, trunk, o, outputSize⟩

/-! ### Optimizer, scheduler, loss -/

/-- The optimizer of a trial (ml/tune.py:471-499). -/
structure OptimizerChoice where
  name : String
  lr : ℚ
  weightDecay : ℚ
  deriving DecidableEq

/-- `_init_optimizer` (tune.py:471-499): unknown names raise AttributeError, negative rates ValueError. -/
def initOptimizer (t : Torch) (s : Space) : Prog OptimizerChoice :=
  suggestStr .optimizer s.optimizer fun name =>
    suggestReal .learningRate s.learningRate fun lr =>
      suggestReal .weightDecay s.weightDecay fun wd =>
        if t.optimizer name = false then .raise .attributeError
        else if lr < 0 ∨ wd < 0 then .raise .valueError
        else .ret ⟨name, lr, wd⟩

/-- The scheduler of a trial (ml/tune.py:501-540). -/
structure SchedulerChoice where
  mode : String
  factor : ℚ
  patience : ℤ
  cooldown : ℤ
  deriving DecidableEq

/-- `sched_mode` as a value of the search list (ml/tune.py:501-540). -/
def modeValue : Option String → Value
  | none => .none
  | some m => .str m

/-- The scheduler of a mode (tune.py:523-540); `ReduceLROnPlateau` raises ValueError for a factor of at least one
and for a mode other than "min" and "max". -/
def plateauScheduler (s : Space) (mode : String) : Prog (Option SchedulerChoice) :=
  suggestFloat .schedFactor s.schedFactor.1 s.schedFactor.2 fun factor =>
    suggestInt .schedPatience s.schedPatience.1 s.schedPatience.2 fun patience =>
      suggestInt .schedCooldown s.schedCooldown.1 s.schedCooldown.2 fun cooldown =>
        if 1 ≤ factor then .raise .valueError
        else if mode ≠ "min" ∧ mode ≠ "max" then .raise .valueError
        else .ret (some ⟨mode, factor, patience, cooldown⟩)

/-- The requests without scheduler (tune.py:516-521). -/
def noScheduler : Prog (Option SchedulerChoice) :=
  .suggest .schedFactor (.categorical [.none]) fun _ =>
    .suggest .schedPatience (.categorical [.none]) fun _ =>
      .suggest .schedCooldown (.categorical [.none]) fun _ => .ret none

/-- `_init_scheduler` (tune.py:501-540). -/
def initScheduler (s : Space) : Prog (Option SchedulerChoice) :=
  .suggest .schedMode (.categorical (s.schedMode.map modeValue)) fun v =>
    match v with
    | .none => noScheduler
    | .str mode => plateauScheduler s mode
    | _ => .raise .valueError

/-- `_init_loss_function` (tune.py:542-559). -/
def initLossFunction (t : Torch) (s : Space) : Prog String :=
  suggestStr .lossFunction s.lossFunctions fun name =>
    if t.loss name = false then .raise .attributeError else .ret name

/-- What a trial trains (ml/tune.py:646-702). -/
structure Config where
  model : Onet
  optimizer : OptimizerChoice
  scheduler : Option SchedulerChoice
  loss : String
  epochs : ℕ
  batch : ℕ
  deriving DecidableEq

/-- The first part of `objective` (tune.py:658-672): `prebuilt = none` is the empty dictionary. -/
def trialConfig (t : Torch) (s : Space) (pre : Option Prebuilt) (fluxSize labelsSize outputSize : ℕ) : Prog Config :=
  (match pre with
    | some pre => initPrebuiltOnetModel t s pre fluxSize labelsSize outputSize
    | none => initOnetModel t s fluxSize labelsSize outputSize).bind fun model =>
  (initOptimizer t s).bind fun opt =>
  (initScheduler s).bind fun sched =>
  (initLossFunction t s).bind fun loss =>
    suggestNat .nEpochs s.nEpochs fun epochs =>
      suggestNat .batchSize s.batchSize fun batch =>
        .ret ⟨model, opt, sched, loss, epochs, batch⟩

/-! ### Studies -/

/-- A finished trial: its configuration and its reported parameters (ml/tune.py:646-740). -/
structure Finished where
  config : Config
  params : List (Param × Value)

/-- `study.optimize(self.objective, n_trials=n)` (tune.py:735): trial after trial; an error of a trial is raised
again.  The training of a configuration is not part of this model.  Returns the trials in order. -/
def optimize (g : Prog Config) : List Sampler → Study → Except PyErr (List Finished) × Study
  | [], st => (.ok [], st)
  | draw :: rest, st =>
    match g.run draw ⟨st, []⟩ with
    | (.error e, st') => (.error e, st'.known)
    | (.ok c, st') =>
      match optimize g rest st'.known with
      | (.error e, st'') => (.error e, st'')
      | (.ok l, st'') => (.ok (⟨c, st'.params⟩ :: l), st'')

/-- Several calls of `run` on one stored study (`load_if_exists=True`, tune.py:728-733). -/
def sessions (g : Prog Config) : List (List Sampler) → Study → Except PyErr (List Finished) × Study
  | [], st => (.ok [], st)
  | draws :: rest, st =>
    match optimize g draws st with
    | (.error e, st') => (.error e, st')
    | (.ok l, st') =>
      match sessions g rest st' with
      | (.error e, st'') => (.error e, st'')
      | (.ok l', st'') => (.ok (l ++ l'), st'')

/-- A study without trials (ml/tune.py:731-736). -/
def newStudy : Study := fun _ => none

/-! ### Forward pass -/

section
variable {K : Type} [Field K]

/-- The weights of the layers of a `Sequential`, by position; what the activation functions do; the factors of
the dropout layers (one in `eval` mode) (ml/tune.py:746-789). -/
structure Weights (K : Type) where
  weight : ℕ → ℕ → ℕ → K
  bias : ℕ → ℕ → K
  act : String → List K → List K
  mask : ℕ → ℕ → K

/-- One layer on one row: `nn.Linear` raises RuntimeError for a row of another length (ml/tune.py:774-789). -/
def Layer.forward (w : Weights K) (pos : ℕ) : Layer → List K → Except PyErr (List K)
  | .linear i o, x =>
    if x.length ≠ i then .error .runtimeError
    else .ok ((List.range o).map fun r => ((List.range i).map fun c => w.weight pos r c * x.getD c 0).sum + w.bias pos r)
  | .activation name, x => .ok (w.act name x)
  | .dropout _, x => .ok ((List.range x.length).map fun c => w.mask pos c * x.getD c 0)

/-- `nn.Sequential(*layers)` (ml/tune.py:774-789). -/
def sequential (w : Weights K) : ℕ → List Layer → List K → Except PyErr (List K)
  | _, [], x => .ok x
  | pos, l :: ls, x =>
    match l.forward w pos x with
    | .error e => .error e
    | .ok y => sequential w (pos + 1) ls y

/-- Elementwise product with broadcasting of a length-one row (ml/tune.py:774-789). -/
def mulRows (x y : List K) : Except PyErr (List K) :=
  if x.length = y.length then .ok ((List.range x.length).map fun c => x.getD c 0 * y.getD c 0)
  else if y.length = 1 then .ok ((List.range x.length).map fun c => x.getD c 0 * y.getD 0 0)
  else if x.length = 1 then .ok ((List.range y.length).map fun c => x.getD 0 0 * y.getD c 0)
  else .error .runtimeError

/-- `DeepONet.forward(u, y)` (tune.py:776-789): `self.fc(self.trunk(y) * self.branch(u))`; the last layer has no
bias. -/
def Onet.forward (wb wt : Weights K) (fc : ℕ → ℕ → K) (net : Onet) (u y : List K) : Except PyErr (List K) :=
  match sequential wt 0 net.trunk y with
  | .error e => .error e
  | .ok a =>
    match sequential wb 0 net.branch u with
    | .error e => .error e
    | .ok b =>
      match mulRows a b with
      | .error e => .error e
      | .ok p =>
        if p.length ≠ net.latent then .error .runtimeError
        else .ok ((List.range net.out).map fun r => ((List.range net.latent).map fun c => fc r c * p.getD c 0).sum)

end

end Discrete1.Tune
