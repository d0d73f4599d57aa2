import Verif.Model.Wrappers
import Verif.Props.Predict

/-!
# Objects of `ml/predict.py`: C204 (DeepONet objects and shared networks), C205 (AutoDJINN construction)
-/

set_option linter.unusedSectionVars false
set_option linter.unusedSimpArgs false

namespace Discrete1.Props

open Discrete1.Ml Discrete1.Predict Discrete1.Wrappers

section

variable {W M C K : Type}

/-- No event builds a wrapper on the network object `net` or trains it; saving and file changes are unrestricted. -/
def LeavesAlone (events : List (Event W M C)) (net : ℕ) : Prop :=
  (∀ n file, Event.build n file ∈ events → n ≠ net) ∧ ∀ n weights, Event.train n weights ∈ events → n ≠ net

theorem history_other (events : List (Event W M C)) (net : ℕ) (h : LeavesAlone events net)
    (w : World W M C) : (history events w).nets net = w.nets net := by
  induction events generalizing w with
  | nil => rfl
  | cons e events ih =>
    show (history events (happen w e)).nets net = _
    rw [ih ⟨fun n f he => h.1 n f (List.mem_cons_of_mem _ he), fun n f he => h.2 n f (List.mem_cons_of_mem _ he)⟩]
    cases e with
    | build n file =>
      have hn : net ≠ n := (h.1 n file List.mem_cons_self).symm
      simp only [happen]
      split
      · rfl
      · exact Function.update_of_ne hn _ _
    | train n x =>
      have hn : net ≠ n := (h.2 n x List.mem_cons_self).symm
      exact Function.update_of_ne hn _ _
    | save name n m => rfl
    | replace f c => rfl

/-- C204 (what holds): a DeepONet object is built exactly when its file holds weights, and whatever happens afterwards to
other network objects and to all files (its own included), it predicts with the weights its file held when it was
built. -/
theorem C204_own_network (forward : W → List (List K × List K) → List (List K)) (net : ℕ) (file : String)
    (t : Transformer (List K)) (d : List (List K) → List (List K)) (w : World W M C) (weights : W)
    (hfile : w.files (file ++ ".pt") = some (.weights weights)) :
    ∃ w' o, deepInit net file t d w = .ok (w', o) ∧
      ∀ events : List (Event W M C), LeavesAlone events net → ∀ label flux,
        predictDeep forward o (history events w') label flux = deepPredict t d (forward weights) label flux := by
  have hl : loadModel file w.files = .ok weights := by simp [loadModel, hfile]
  refine ⟨_, _, by unfold deepInit; rw [hl], fun events he label flux => ?_⟩
  unfold predictDeep
  rw [history_other events net he]
  simp

/-- C204: it fails, without changing anything, exactly when the file is missing or holds something else. -/
theorem C204_fails (net : ℕ) (file : String) (t : Transformer (List K)) (d : List (List K) → List (List K))
    (w : World W M C) :
    (∃ e, deepInit net file t d w = .error e) ↔ ∀ weights, w.files (file ++ ".pt") ≠ some (.weights weights) := by
  constructor
  · rintro ⟨e, h⟩ weights hw
    have hl : loadModel file w.files = .ok weights := by simp [loadModel, hw]
    unfold deepInit at h
    rw [hl] at h
    cases h
  · intro h
    unfold deepInit loadModel
    rcases hf : w.files (file ++ ".pt") with _ | s
    · exact ⟨.fileNotFound, rfl⟩
    · cases s with
      | weights x => exact absurd hf (h x)
      | metrics m => exact ⟨.runtimeError, rfl⟩
      | checkpoint c => exact ⟨.runtimeError, rfl⟩

/-- C204 is violated: two DeepONet objects built on the same network object share it: after the second is built the first
predicts with the second's weights, for every pair of files and every later history that leaves the network alone. -/
theorem C204_violation_shared (forward : W → List (List K × List K) → List (List K)) (net : ℕ) (file₁ file₂ : String)
    (t₁ t₂ : Transformer (List K)) (d₁ d₂ : List (List K) → List (List K)) (w : World W M C) (a b : W)
    (h₁ : w.files (file₁ ++ ".pt") = some (.weights a)) (h₂ : w.files (file₂ ++ ".pt") = some (.weights b)) :
    ∃ w₁ o₁ w₂ o₂, deepInit net file₁ t₁ d₁ w = .ok (w₁, o₁) ∧ deepInit net file₂ t₂ d₂ w₁ = .ok (w₂, o₂) ∧
      (∀ label flux, predictDeep forward o₁ w₁ label flux = deepPredict t₁ d₁ (forward a) label flux) ∧
      ∀ label flux, predictDeep forward o₁ w₂ label flux = deepPredict t₁ d₁ (forward b) label flux := by
  have l₁ : loadModel file₁ w.files = .ok a := by simp [loadModel, h₁]
  have l₂ : loadModel file₂ w.files = .ok b := by simp [loadModel, h₂]
  refine ⟨{ w with nets := Function.update w.nets net a }, ⟨net, t₁, d₁⟩,
    { w with nets := Function.update (Function.update w.nets net a) net b }, ⟨net, t₂, d₂⟩, ?_, ?_, ?_, ?_⟩
  · unfold deepInit; rw [l₁]
  · unfold deepInit; rw [l₂]
  · intro label flux; simp [predictDeep]
  · intro label flux; simp [predictDeep]

/-- C204 is violated: the file that `save_model(name)` wrote is not found under the path it has on the disk. -/
theorem C204_violation_path (net : ℕ) (name : String) (t : Transformer (List K)) (d : List (List K) → List (List K))
    (w : World W M C) (m : M) (hno : w.files (name ++ ".pt" ++ ".pt") = none) :
    let w' := happen w (.save name net m)
    w'.files (name ++ ".pt") = some (.weights (w.nets net)) ∧
      deepInit net (name ++ ".pt") t d w' = .error .fileNotFound := by
  have hne : name ++ "-loss-metrics.npz" ≠ name ++ ".pt" := fun h => by
    have := congrArg String.toList h
    simp only [String.toList_append] at this
    exact absurd (List.append_cancel_left this) (by decide)
  have hne2 : name ++ ".pt" ++ ".pt" ≠ name ++ ".pt" := fun h => by
    have := congrArg String.toList h
    simp only [String.toList_append, List.append_assoc] at this
    exact absurd (List.append_cancel_left this) (by decide)
  have hne3 : name ++ ".pt" ++ ".pt" ≠ name ++ "-loss-metrics.npz" := fun h => by
    have := congrArg String.toList h
    simp only [String.toList_append, List.append_assoc] at this
    exact absurd (List.append_cancel_left this) (by decide)
  intro w'
  have hw : w'.files = Function.update (Function.update w.files (name ++ ".pt") (some (.weights (w.nets net))))
      (name ++ "-loss-metrics.npz") (some (.metrics m)) := rfl
  refine ⟨?_, ?_⟩
  · rw [hw, Function.update_of_ne hne.symm, Function.update_self]
  · unfold deepInit loadModel
    rw [hw, Function.update_of_ne hne3, Function.update_of_ne hne2, hno]

/-! ### C205 -/

variable {F D : Type}

/-- C205: the torch object is built exactly when the backend is usable and the three files hold two networks and a DJINN
model; it then consists of these, and its predictions are those of the pipeline on 32-bit features. -/
theorem C205_torch (globals : Bool × Bool) (torchLoad : String → Except PyErr (TorchFile F))
    (kerasLoad : String → Except PyErr F) (djinnLoad : String → Except PyErr D) (backend fe fd fc : String)
    (hb : selectBackend globals backend = .ok .torch) (o : AutoDjinn F D) :
    autoInit globals torchLoad kerasLoad djinnLoad backend fe fd fc = .ok o ↔
      torchLoad fe = .ok (.network o.encoder) ∧ torchLoad fc = .ok (.network o.decoder) ∧ djinnLoad fd = .ok o.djinn ∧
        o.backend = .torch := by
  unfold autoInit
  rw [hb]
  rcases he : torchLoad fe with e | e
  · simp
  · rcases hc : torchLoad fc with c | c
    · simp
    · rcases e with e | _
      · rcases c with c | _
        · rcases hd : djinnLoad fd with x | x
          · simp
          · simp only [Except.ok.injEq, TorchFile.network.injEq]
            constructor
            · rintro rfl; exact ⟨rfl, rfl, rfl, rfl⟩
            · rintro ⟨rfl, rfl, rfl, h⟩
              cases o
              simp only at h
              subst h
              rfl
        · simp
      · simp

theorem C205_tensorflow (globals : Bool × Bool) (torchLoad : String → Except PyErr (TorchFile F))
    (kerasLoad : String → Except PyErr F) (djinnLoad : String → Except PyErr D) (backend fe fd fc : String)
    (hb : selectBackend globals backend = .ok .tensorflow) (o : AutoDjinn F D) :
    autoInit globals torchLoad kerasLoad djinnLoad backend fe fd fc = .ok o ↔
      kerasLoad fe = .ok o.encoder ∧ kerasLoad fc = .ok o.decoder ∧ djinnLoad fd = .ok o.djinn ∧
        o.backend = .tensorflow := by
  unfold autoInit
  rw [hb]
  rcases he : kerasLoad fe with e | e
  · simp
  · rcases hc : kerasLoad fc with c | c
    · simp
    · rcases hd : djinnLoad fd with x | x
      · simp
      · simp only [Except.ok.injEq]
        constructor
        · rintro rfl; exact ⟨rfl, rfl, rfl, rfl⟩
        · rintro ⟨rfl, rfl, rfl, h⟩
          cases o
          simp only at h
          subst h
          rfl

/-- C205: with no backend nothing is loaded: the error is the one of the selection. -/
theorem C205_backend_first (globals : Bool × Bool) (torchLoad : String → Except PyErr (TorchFile F))
    (kerasLoad : String → Except PyErr F) (djinnLoad : String → Except PyErr D) (backend fe fd fc : String) (e : PyErr)
    (hb : selectBackend globals backend = .error e) :
    autoInit globals torchLoad kerasLoad djinnLoad backend fe fd fc = .error e := by
  unfold autoInit; rw [hb]

/-- C205: a torch file that holds a `state_dict` instead of a network is refused with AttributeError, before the DJINN
file is looked at. -/
theorem C205_state_dict (globals : Bool × Bool) (torchLoad : String → Except PyErr (TorchFile F))
    (kerasLoad : String → Except PyErr F) (djinnLoad : String → Except PyErr D) (backend fe fd fc : String)
    (hb : selectBackend globals backend = .ok .torch) (a b : TorchFile F) (ha : torchLoad fe = .ok a)
    (hc : torchLoad fc = .ok b) (h : a = .stateDict ∨ b = .stateDict) :
    autoInit globals torchLoad kerasLoad djinnLoad backend fe fd fc = .error .attributeError := by
  unfold autoInit
  rw [hb, ha, hc]
  rcases a with a | _
  · rcases b with b | _
    · simp at h
    · rfl
  · rfl

/-- C205: row by row, for both backends: when encoder, regression, decoder and the two functions act on rows, the answer
for a stack of rows is the stack of the answers, the label prefixed to the transformed and to the encoded row; the torch
networks see 32-bit features. -/
theorem C205_rows (keras torch : F → List (List K) → List (List K)) (cast : K → K)
    (regress : D → List (List K) → List (List K)) (o : AutoDjinn F D) (t : Transformer (List K))
    (d : List (List K) → List (List K)) (t' d' : List K → List K) (net : F → List K → List K) (reg : List K → List K)
    (ht : ∀ x, (t x).1 = x.map t') (hd : ∀ x, d x = x.map d')
    (hk : ∀ f x, keras f x = x.map (net f)) (htorch : ∀ f x, torch f x = x.map (net f))
    (hr : ∀ x, regress o.djinn x = x.map reg) (label : Option (List K)) (flux : List (List K)) :
    let c : List K → List K := fun r => match o.backend with | .torch => r.map cast | .tensorflow => r
    predictAuto keras torch cast regress t d o label flux
      = (flux.map fun r => d' (net o.decoder (c (reg (label.getD [] ++
          net o.encoder (c (label.getD [] ++ t' r)))))), flux) := by
  intro c
  have happly : ∀ f x, applyNet keras torch cast o.backend f x = x.map fun r => net f (c r) := by
    intro f x
    unfold applyNet
    rcases hb : o.backend with _ | _
    · simp only [hk, c, hb]
    · simp only [htorch, c, hb, List.map_map]; rfl
  refine Prod.ext ?_ rfl
  have := C107_autodjinn t d (applyNet keras torch cast o.backend o.encoder) (regress o.djinn)
    (applyNet keras torch cast o.backend o.decoder) t' d' (fun r => net o.encoder (c r)) reg
    (fun r => net o.decoder (c r)) ht hd (happly _) hr (happly _) label flux
  unfold predictAuto
  rw [this]
  refine List.map_congr_left fun r _ => ?_
  cases label <;> rfl

/-! ### Examples -/

-- two models saved, loaded into one network object: the first object changes its answer
example : ∃ (w₁ : World ℕ Unit Unit) (o₁ : DeepONet ℕ) (w₂ : World ℕ Unit Unit) (o₂ : DeepONet ℕ),
    deepInit 0 "a" (fun x => (x, x)) id ⟨fun _ => 0, fun n => if n = "a.pt" then some (.weights 1) else
      if n = "b.pt" then some (.weights 2) else none⟩ = .ok (w₁, o₁) ∧
    deepInit 0 "b" (fun x => (x, x)) id w₁ = .ok (w₂, o₂) ∧
    (predictDeep (fun w rows => rows.map fun r => r.1.map (w * ·)) o₁ w₁ [0] [[1]]).1 = .ok [[1]] ∧
    (predictDeep (fun w rows => rows.map fun r => r.1.map (w * ·)) o₁ w₂ [0] [[1]]).1 = .ok [[2]] := by
  obtain ⟨w₁, o₁, w₂, o₂, h1, h2, h3, h4⟩ := C204_violation_shared (M := Unit) (C := Unit)
    (fun (w : ℕ) (rows : List (List ℕ × List ℕ)) => rows.map fun r => r.1.map (w * ·)) 0 "a" "b" (fun x => (x, x))
    (fun x => (x, x)) id id ⟨fun _ => 0, fun n => if n = "a.pt" then some (.weights 1) else
      if n = "b.pt" then some (.weights 2) else none⟩ 1 2
    (by simp) (by simp)
  refine ⟨w₁, o₁, w₂, o₂, h1, h2, ?_, ?_⟩
  · rw [h3]; rfl
  · rw [h4]; rfl

example := C204_own_network (M := Unit) (C := Unit) (fun (w : ℕ) (rows : List (List ℕ × List ℕ)) =>
    rows.map fun r => r.1.map (w * ·)) 0 "a" (fun x => (x, x)) id
  ⟨fun _ => 0, fun n => if n = "a.pt" then some (.weights 1) else none⟩ 1 (by simp)

example := C204_violation_path (K := ℕ) (C := Unit) 0 "a" (fun x => (x, x)) id ⟨fun _ => (0 : ℕ), fun _ => none⟩ () rfl

/-- A history that leaves network 0 alone: other networks built and trained, network 0 saved, its file removed. -/
example : LeavesAlone ([.build 1 "a", .train 2 5, .save "c" 0 (), .replace "a.pt" none] : List (Event ℕ Unit Unit)) 0 := by
  constructor <;> intro n x h <;> simp at h <;> omega

/-- The encoder file holds a `state_dict`. -/
example := C205_state_dict (F := ℕ) (D := ℕ) (true, false) (fun f => .ok (if f = "e" then .stateDict else .network 1))
  (fun _ => .error .importError) (fun _ => .ok 3) "Torch" "e" "d" "c" (by decide +kernel) .stateDict (.network 1)
  (by simp) (by simp) (Or.inl rfl)

-- a torch installation
example : selectBackend (true, false) "Torch" = .ok .torch := by decide +kernel
example : selectBackend (false, true) "TensorFlow" = .ok .tensorflow := by decide +kernel
example : selectBackend (true, false) "jax" = .error .valueError := by decide +kernel

end

end Discrete1.Props
