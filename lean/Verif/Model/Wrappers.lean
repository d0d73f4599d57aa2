import Verif.Model.Predict
import Verif.Model.Trainer

/-!
# Model of the constructors of `discrete1/ml/predict.py` and of the objects they share

A network is a Python object, known by a number; the weights it carries are part of the world.  `load_model` copies
weights into the object it is given (ml/train.py:233, 786), so everything else that refers to the object sees them.
Simplified: weights fit the network they are loaded into; conversion to 32-bit floats is a parameter.
-/

namespace Discrete1.Wrappers

open Discrete1.Ml Discrete1.Predict

/-- The weights of every network object and the files (ml/train.py:233, 764-786). -/
structure World (W M C : Type) where
  nets : ℕ → W
  files : String → Option (Stored W M C)

/-- A `DeepONet` object: the network object it refers to and its two functions (ml/predict.py:493-496). -/
structure DeepONet (K : Type) where
  net : ℕ
  transformer : Transformer (List K)
  detransformer : List (List K) → List (List K)

variable {W M C K : Type}

/-- `DeepONet.__init__(network, file, transformer, detransformer)` (ml/predict.py:468-498):
`RegressionDeepONet(network, None, None, None)` keeps the object (ml/train.py:233), `load_model(file)` loads
`file.pt` into it. -/
def deepInit (net : ℕ) (file : String) (t : Transformer (List K)) (d : List (List K) → List (List K)) (w : World W M C) :
    Except PyErr (World W M C × DeepONet K) :=
  match loadModel file w.files with
  | .error e => .error e
  | .ok weights => .ok ({ w with nets := Function.update w.nets net weights }, ⟨net, t, d⟩)

/-- `DeepONet.predict` (ml/predict.py:500-534) with the weights the network object carries at the time. -/
def predictDeep (forward : W → List (List K × List K) → List (List K)) (o : DeepONet K) (w : World W M C) (label : List K)
    (flux : List (List K)) : Except PyErr (List (List K)) × List (List K) :=
  deepPredict o.transformer o.detransformer (forward (w.nets o.net)) label flux

/-- What else can happen to the world (ml/predict.py:468-498; ml/train.py:613-662, 764-775): another object is built
(when its file does not load nothing changes), a network is trained (to any weights), a model is saved, any file is
replaced or removed. -/
inductive Event (W M C : Type)
  | build (net : ℕ) (file : String)
  | train (net : ℕ) (weights : W)
  | save (name : String) (net : ℕ) (metrics : M)
  | replace (file : String) (content : Option (Stored W M C))

/-- One event (ml/predict.py:468-498; ml/train.py:613-662, 764-775). -/
def happen (w : World W M C) : Event W M C → World W M C
  | .build net file =>
    match loadModel file w.files with
    | .error _ => w
    | .ok weights => { w with nets := Function.update w.nets net weights }
  | .train net weights => { w with nets := Function.update w.nets net weights }
  | .save name net metrics => { w with files := (saveModel name (w.nets net) (some metrics) w.files).1 }
  | .replace file content => { w with files := Function.update w.files file content }

/-- A history (ml/predict.py:468-498). -/
def history (events : List (Event W M C)) (w : World W M C) : World W M C := events.foldl happen w

/-! ### AutoDJINN (ml/predict.py:291-374) -/

/-- What an encoder or decoder file holds for `torch.load`: a whole module, or something without `eval` such as a
`state_dict` (ml/predict.py:349-352). -/
inductive TorchFile (F : Type)
  | network (f : F)
  | stateDict

/-- An `AutoDJINN` object (ml/predict.py:354-358). -/
structure AutoDjinn (F D : Type) where
  backend : Backend
  encoder : F
  decoder : F
  djinn : D

/-- `AutoDJINN.__init__` (ml/predict.py:327-358): backend, both networks, `eval` of both (torch), DJINN; `torchLoad` is
`torch.load`, `kerasLoad` is `load_model` followed by `compile`, `djinnLoad` is `djinn.load`. -/
def autoInit {F D : Type} (globals : Bool × Bool) (torchLoad : String → Except PyErr (TorchFile F))
    (kerasLoad : String → Except PyErr F) (djinnLoad : String → Except PyErr D) (backend encoderFile djinnFile
    decoderFile : String) : Except PyErr (AutoDjinn F D) :=
  match selectBackend globals backend with
  | .error e => .error e
  | .ok .tensorflow =>
    match kerasLoad encoderFile with
    | .error e => .error e
    | .ok encoder =>
      match kerasLoad decoderFile with
      | .error e => .error e
      | .ok decoder =>
        match djinnLoad djinnFile with
        | .error e => .error e
        | .ok djinn => .ok ⟨.tensorflow, encoder, decoder, djinn⟩
  | .ok .torch =>
    match torchLoad encoderFile with
    | .error e => .error e
    | .ok encoder =>
      match torchLoad decoderFile with
      | .error e => .error e
      | .ok decoder =>
        match encoder with
        | .stateDict => .error .attributeError
        | .network encoder =>
          match decoder with
          | .stateDict => .error .attributeError
          | .network decoder =>
            match djinnLoad djinnFile with
            | .error e => .error e
            | .ok djinn => .ok ⟨.torch, encoder, decoder, djinn⟩

/-- `_encode` and `_decode` (ml/predict.py:360-374): with torch the features are converted to 32-bit floats first. -/
def applyNet {F : Type} (keras torch : F → List (List K) → List (List K)) (cast : K → K) (backend : Backend) (f : F)
    (x : List (List K)) : List (List K) :=
  match backend with
  | .tensorflow => keras f x
  | .torch => torch f (x.map fun r => r.map cast)

/-- `AutoDJINN.predict` of an object (ml/predict.py:376-430). -/
def predictAuto {F D : Type} (keras torch : F → List (List K) → List (List K)) (cast : K → K)
    (regress : D → List (List K) → List (List K)) (t : Transformer (List K)) (d : List (List K) → List (List K))
    (o : AutoDjinn F D) (label : Option (List K)) (flux : List (List K)) : List (List K) × List (List K) :=
  autoPredict t d (applyNet keras torch cast o.backend o.encoder) (regress o.djinn)
    (applyNet keras torch cast o.backend o.decoder) label flux

end Discrete1.Wrappers
