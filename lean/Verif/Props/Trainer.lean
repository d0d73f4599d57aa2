import Verif.Model.Trainer
import Verif.Props.Train

/-!
# C158-C161: trainers, epochs and saved models
-/

set_option linter.unusedSectionVars false
set_option linter.unusedSimpArgs false

namespace Discrete1.Props

open Discrete1.Ml

/-! ## C158: saved models -/

section Saved
variable {W M C : Type}

theorem pt_ne_npz (a b x : String) : a ++ ".pt" ≠ b ++ x ++ "metrics.npz" := by
  intro h
  have := congrArg (fun s => s.toList.getLast?) h
  simp only [String.toList_append] at this
  rw [List.getLast?_append_of_ne_nil _ (by decide), List.getLast?_append_of_ne_nil _ (by decide)] at this
  exact absurd this (by decide)

theorem suffix_inj {a b x : String} (h : a ++ x = b ++ x) : a = b := by
  have := congrArg String.toList h
  simp only [String.toList_append, List.append_cancel_right_eq] at this
  exact String.toList_injective this

theorem metrics_file (name : String) : name ++ "-loss-metrics.npz" = name ++ "-loss-" ++ "metrics.npz" := by
  rw [String.append_assoc]; rfl

/-- C158: what a trained model saves is what `load_model` brings back, whatever has been saved under other names in the
meantime; the metrics are kept next to it, and no other file is touched. -/
theorem C158_round_trip (name : String) (w : W) (m : M) (fs : String → Option (Stored W M C)) :
    let r := saveModel name w (some m) fs
    r.2 = .ok () ∧ loadModel name r.1 = .ok w ∧ r.1 (name ++ "-loss-metrics.npz") = some (.metrics m) ∧
    (∀ f, f ≠ name ++ ".pt" → f ≠ name ++ "-loss-metrics.npz" → r.1 f = fs f) ∧
    ∀ other w' (m' : Option M), other ≠ name → loadModel name (saveModel other w' m' r.1).1 = .ok w := by
  have hne : name ++ ".pt" ≠ name ++ "-loss-metrics.npz" := by rw [metrics_file]; exact pt_ne_npz _ _ _
  have hl : (saveModel name w (some m) fs).1 (name ++ ".pt") = some (.weights w) := by
    simp only [saveModel]
    rw [Function.update_of_ne hne, Function.update_self]
  refine ⟨rfl, ?_, ?_, ?_, ?_⟩
  · unfold loadModel; rw [hl]
  · simp [saveModel]
  · intro f h1 h2
    simp only [saveModel]
    rw [Function.update_of_ne h2, Function.update_of_ne h1]
  · intro other w' m' ho
    have h1 : name ++ ".pt" ≠ other ++ ".pt" := fun h => ho (suffix_inj h).symm
    have h2 : name ++ ".pt" ≠ other ++ "-loss-metrics.npz" := by rw [metrics_file]; exact pt_ne_npz _ _ _
    have : (saveModel other w' m' (saveModel name w (some m) fs).1).1 (name ++ ".pt") = some (.weights w) := by
      cases m' with
      | none => simp only [saveModel] at hl ⊢; rw [Function.update_of_ne h1]; exact hl
      | some m' =>
        simp only [saveModel] at hl ⊢
        rw [Function.update_of_ne h2, Function.update_of_ne h1]; exact hl
    unfold loadModel; rw [this]

/-- C158 (violation): the metrics are not saved under the documented name `<name>_loss_metrics.npz`. -/
theorem C158_violation_documented_name (name : String) (w : W) (m : Option M) (fs : String → Option (Stored W M C)) :
    (saveModel name w m fs).1 (name ++ "_loss_metrics.npz") = fs (name ++ "_loss_metrics.npz") := by
  have e : name ++ "_loss_metrics.npz" = name ++ "_loss_" ++ "metrics.npz" := by rw [String.append_assoc]; rfl
  have h1 : name ++ "_loss_metrics.npz" ≠ name ++ ".pt" := by rw [e]; exact (pt_ne_npz _ _ _).symm
  have h2 : name ++ "_loss_metrics.npz" ≠ name ++ "-loss-metrics.npz" := by
    intro h
    have := congrArg String.toList h
    simp only [String.toList_append, List.append_cancel_left_eq] at this
    exact absurd this (by decide)
  cases m with
  | none => simp only [saveModel]; rw [Function.update_of_ne h1]
  | some m => simp only [saveModel]; rw [Function.update_of_ne h2, Function.update_of_ne h1]

/-- C158 (violation): saving a model that was loaded, or not trained successfully yet, raises AttributeError - after the
weights file has been written. -/
theorem C158_violation_untrained (name : String) (w : W) (fs : String → Option (Stored W M C)) :
    (saveModel (M := M) name w none fs).2 = .error .attributeError ∧
    loadModel name (saveModel (M := M) name w none fs).1 = .ok w := by
  refine ⟨rfl, ?_⟩
  simp [loadModel, saveModel]

/-- C158 (violation): a checkpoint file named like the saved model is replaced by the bare weights. -/
theorem C158_violation_checkpoint_replaced (name : String) (w : W) (m : Option M) (c : C)
    (fs : String → Option (Stored W M C)) (_ : fs (name ++ ".pt") = some (.checkpoint c)) :
    ∃ w', (saveModel name w m fs).1 (name ++ ".pt") = some (.weights w') := by
  have hne : name ++ ".pt" ≠ name ++ "-loss-metrics.npz" := by rw [metrics_file]; exact pt_ne_npz _ _ _
  refine ⟨w, ?_⟩
  cases m with
  | none => simp [saveModel]
  | some m => simp only [saveModel]; rw [Function.update_of_ne hne, Function.update_self]

example := C158_round_trip (C := ℕ) "run" 5 "metrics" (fun f => if f = "run.pt" then some (.checkpoint 3) else none)

example := C158_violation_checkpoint_replaced (W := ℕ) (M := ℕ) "run" 5 none 3
  (fun f => if f = "run.pt" then some (.checkpoint 3) else none) (if_pos (by decide))

end Saved

/-! ## C159: the constructor's options -/

/-- The documented options and the attribute each one sets. -/
def optionValue (t : Trainer) : String → Option Arg
  | "n_epochs" => some t.nEpochs
  | "batch_size" => some t.batchSize
  | "loss_fn" => some t.lossFn
  | "optimizer" => some t.optimizer
  | "lr" => some t.lr
  | "weight_decay" => some t.weightDecay
  | "lr_scheduler" => some t.lrScheduler
  | "lr_scheduler_params" => some t.lrSchedulerParams
  | "checkpoint" => some t.checkpoint
  | "device" => some t.device
  | "LOUD" => some t.loud
  | "tensorboard" => some t.writer
  | _ => none

/-- The documented defaults (train.py:208-236). -/
def documentedDefault : String → Option Arg
  | "n_epochs" => some (.num 100)
  | "batch_size" => some (.num 32)
  | "loss_fn" => some (.str "MSELoss")
  | "optimizer" => some (.str "Adam")
  | "lr" => some (.num (1 / 1000))
  | "weight_decay" => some (.num 0)
  | "lr_scheduler" => some .none
  | "lr_scheduler_params" => some (.params [])
  | "checkpoint" => some .none
  | "device" => some (.str "cpu")
  | "LOUD" => some (.bool true)
  | "tensorboard" => some (.str "run-01")
  | _ => none

theorem lookup_of_mem {kw : List (String × Arg)} (hd : (kw.map Prod.fst).Nodup) {k : String} {v : Arg} (h : (k, v) ∈ kw) :
    kw.lookup k = some v := by
  induction kw with
  | nil => simp at h
  | cons a kw ih =>
    obtain ⟨k', v'⟩ := a
    simp only [List.map_cons, List.nodup_cons] at hd
    rw [List.lookup_cons]
    rcases List.mem_cons.mp h with h1 | h1
    · cases h1; simp
    · have hk : k ≠ k' := by
        rintro rfl
        exact hd.1 (List.mem_map.mpr ⟨(k, v), h1, rfl⟩)
      rw [beq_eq_false_iff_ne.mpr hk]
      exact ih hd.2 h1

theorem lookup_of_not_mem {kw : List (String × Arg)} {k : String} (h : k ∉ kw.map Prod.fst) : kw.lookup k = none := by
  induction kw with
  | nil => rfl
  | cons a kw ih =>
    obtain ⟨k', v'⟩ := a
    simp only [List.map_cons, List.mem_cons, not_or] at h
    rw [List.lookup_cons, beq_eq_false_iff_ne.mpr h.1]
    exact ih h.2

/-- C159: every documented option that is given sets its attribute, every one that is left out takes its documented
default (TensorBoard apart), and exactly the other names are reported, once each. -/
theorem C159_options (kw : List (String × Arg)) (hd : (kw.map Prod.fst).Nodup) :
    (∀ k v, (k, v) ∈ kw → k ∈ validKwargs → optionValue (initTrainer kw).2 k = some v) ∧
    (∀ k ∈ validKwargs, k ≠ "tensorboard" → k ∉ kw.map Prod.fst →
      optionValue (initTrainer kw).2 k = documentedDefault k) ∧
    (∀ k, k ∈ (initTrainer kw).1 ↔ k ∈ kw.map Prod.fst ∧ k ∉ validKwargs) ∧ (initTrainer kw).1.Nodup := by
  refine ⟨fun k v h hv => ?_, fun k hv ht hk => ?_, fun k => ?_, hd.filter _⟩
  · have hl := lookup_of_mem hd h
    simp only [validKwargs, List.mem_cons, List.not_mem_nil, or_false] at hv
    rcases hv with rfl | rfl | rfl | rfl | rfl | rfl | rfl | rfl | rfl | rfl | rfl | rfl <;>
      simp [optionValue, initTrainer, kwGet, hl]
  · have hl := lookup_of_not_mem hk
    simp only [validKwargs, List.mem_cons, List.not_mem_nil, or_false] at hv
    rcases hv with rfl | rfl | rfl | rfl | rfl | rfl | rfl | rfl | rfl | rfl | rfl | rfl
    all_goals first
      | exact absurd rfl ht
      | simp [optionValue, documentedDefault, initTrainer, kwGet, hl]
  · simp [initTrainer]

/-- C159: unexpected names change nothing but the warnings. -/
theorem C159_unexpected_ignored (kw : List (String × Arg)) (k : String) (v : Arg) (hk : k ∉ validKwargs) :
    (initTrainer ((k, v) :: kw)).2 = (initTrainer kw).2 := by
  have h : ∀ n d, n ∈ validKwargs → kwGet ((k, v) :: kw) n d = kwGet kw n d := by
    intro n d hn
    have : n ≠ k := fun h => hk (h ▸ hn)
    unfold kwGet
    rw [List.lookup_cons, beq_eq_false_iff_ne.mpr this]
  simp only [initTrainer]
  congr 1 <;> exact h _ _ (by decide)

/-- C159 (violation): TensorBoard logging is off by default, the documentation says `"run-01"`. -/
theorem C159_violation_tensorboard (kw : List (String × Arg)) (h : "tensorboard" ∉ kw.map Prod.fst) :
    optionValue (initTrainer kw).2 "tensorboard" = some .none ∧
    optionValue (initTrainer kw).2 "tensorboard" ≠ documentedDefault "tensorboard" := by
  have hl := lookup_of_not_mem h
  have : optionValue (initTrainer kw).2 "tensorboard" = some .none := by
    simp [optionValue, initTrainer, kwGet, hl]
  rw [this]
  exact ⟨rfl, by decide⟩

/-- C159: a named optimizer that knows learning rates and weight decay is built with the trainer's values. -/
theorem C159_optimizer (optim : Registry) (t : Trainer) (name : String) (ps : List String) (hn : t.optimizer = .str name)
    (hc : optim name = some ps) (h1 : "lr" ∈ ps) (h2 : "weight_decay" ∈ ps) :
    initOptimizer optim t = .ok (.made name [("lr", t.lr), ("weight_decay", t.weightDecay)]) := by
  simp [initOptimizer, build, getClass, hn, hc, callKw, h1, h2, bind, Except.bind]

/-- C159 (violation): optimizers without weight decay (such as `Rprop` and `LBFGS`) cannot be used, even though the
default weight decay is zero. -/
theorem C159_violation_no_weight_decay (optim : Registry) (t : Trainer) (name : String) (ps : List String)
    (hn : t.optimizer = .str name) (hc : optim name = some ps) (h2 : "weight_decay" ∉ ps) :
    initOptimizer optim t = .error .typeError := by
  simp [initOptimizer, build, getClass, hn, hc, callKw, h2, bind, Except.bind]

/-- C159: the loss is the named class or the object given; without a scheduler name there is no scheduler, and a named
one is built with the given parameters. -/
theorem C159_loss_and_scheduler (nn sched : Registry) (t : Trainer) :
    (∀ name ps, t.lossFn = .str name → nn name = some ps → initLossFn nn t = .ok (.made name [])) ∧
    (∀ a, t.lossFn = a → (∀ s, a ≠ .str s) → initLossFn nn t = .ok (.given a)) ∧
    (t.lrScheduler = .none → initLrScheduler sched t = .ok none) ∧
    (∀ name ps l, t.lrScheduler = .str name → sched name = some ps → t.lrSchedulerParams = .params l →
      (∀ x ∈ l, x.1 ∈ ps) →
      initLrScheduler sched t = .ok (some (.made name (l.map fun x => (x.1, .num x.2))))) := by
  refine ⟨fun name ps h1 h2 => ?_, fun a h1 h2 => ?_, fun h => ?_, fun name ps l h1 h2 h3 h4 => ?_⟩
  · simp [initLossFn, h1, build, getClass, h2, callKw, bind, Except.bind]
  · unfold initLossFn
    rw [h1]
    cases a with
    | str s => exact absurd rfl (h2 s)
    | _ => rfl
  · unfold initLrScheduler; rw [h]
  · have : (l.map Prod.fst).all (fun k => ps.contains k) = true := by
      simp only [List.all_map, List.all_eq_true, Function.comp, List.contains_iff_mem]
      exact h4
    simp only [initLrScheduler, h1, getClass, h2, h3, bind, Except.bind, callKw, this, if_true, Except.map]

/-- C159: names that torch does not know are not replaced by others: AttributeError. -/
theorem C159_unknown_names (optim nn sched : Registry) (t : Trainer) (name : String) :
    (t.optimizer = .str name → optim name = none → initOptimizer optim t = .error .attributeError) ∧
    (t.lossFn = .str name → nn name = none → initLossFn nn t = .error .attributeError) ∧
    (t.lrScheduler = .str name → sched name = none → initLrScheduler sched t = .error .attributeError) := by
  refine ⟨fun h1 h2 => ?_, fun h1 h2 => ?_, fun h1 h2 => ?_⟩
  · simp [initOptimizer, build, getClass, h1, h2, bind, Except.bind]
  · simp [initLossFn, h1, build, getClass, h2, bind, Except.bind]
  · simp [initLrScheduler, h1, getClass, h2, bind, Except.bind]

/-- C159 (violation): the documentation asks for a scheduler object; every object that is not a string is refused. -/
theorem C159_violation_scheduler_object (sched : Registry) (t : Trainer) (id : ℕ) (h : t.lrScheduler = .object id) :
    initLrScheduler sched t = .error .typeError := by
  unfold initLrScheduler
  rw [h]
  rfl

/-- A registry in the style of torch. -/
def exOptim : Registry := fun s =>
  if s = "Adam" then some ["lr", "betas", "eps", "weight_decay", "amsgrad"]
  else if s = "Rprop" then some ["lr", "etas", "step_sizes"] else none

example := C159_options [("lr", .num 5), ("epochs", .num 3)] (by decide)
example := C159_unexpected_ignored [("lr", .num 5)] "epochs" (.num 3) (by decide)
example := C159_violation_tensorboard [("lr", .num 5)] (by decide)
example := C159_optimizer exOptim (initTrainer []).2 "Adam" _ (by rfl) rfl (by decide) (by decide)
example := C159_violation_no_weight_decay exOptim (initTrainer [("optimizer", .str "Rprop")]).2 "Rprop" _ (by rfl) rfl
  (by decide)
example := C159_violation_scheduler_object exOptim (initTrainer [("lr_scheduler", .object 1)]).2 1 (by rfl)

/-! ## C160, C161: what an epoch does -/

section Epoch
variable {S B L W O K : Type} [LinearOrder K]

/-- torch's contract for evaluation: switching the mode works, and in evaluation mode a forward pass without gradients
changes nothing. -/
structure EvalPure (t : Torch S B L) : Prop where
  mode : ∀ b s, t.training (t.setTraining b s) = b
  opened : ∀ s, t.training (t.openEval s) = t.training s
  forward : ∀ b s, t.training s = false → (t.forward b s).1 = s

theorem passForward_state {t : Torch S B L} (h : EvalPure t) (data : List B) : ∀ s, t.training s = false →
    (passBatches t.forward data s).1 = s := by
  induction data with
  | nil => intro s _; rfl
  | cons b bs ih =>
    intro s hs
    simp only [passBatches]
    rw [h.forward b s hs]
    exact ih s hs

theorem evalBatches_state {t : Torch S B L} (h : EvalPure t) (c : Setup B L) (data : List B) (s : S) :
    (evalBatches t c data (t.setTraining false s)).1 = t.openEval (t.setTraining false s) := by
  unfold evalBatches
  exact passForward_state h data _ (by rw [h.opened, h.mode])

/-- Losses of a state on a data set: every batch is evaluated with the same weights. -/
theorem passForward_losses {t : Torch S B L} (h : EvalPure t) (data : List B) : ∀ s, t.training s = false →
    (passBatches t.forward data s).2 = data.map fun b => (b, (t.forward b s).2) := by
  induction data with
  | nil => intro s _; rfl
  | cons b bs ih =>
    intro s hs
    simp only [passBatches, List.map_cons]
    rw [h.forward b s hs, ih s hs]

/-- C160: one epoch updates the model once per training batch, in the order of the loader and in training mode, then
evaluates the validation batches in evaluation mode, all with the updated weights, and steps the scheduler once: with
the validation loss for `ReduceLROnPlateau`, without for others, not at all without scheduler. -/
theorem C160_epoch (t : Torch S B L) (c : Setup B L) (h : EvalPure t) (s : S) :
    let o := t.openTrain (t.setTraining true s)
    let trained := o.2.foldl (fun s b => (t.update b s).1) o.1
    let ready := t.openEval (t.setTraining false trained)
    let r := trainOneEpoch t c s
    r.2.2 = c.mean (c.val.map fun b => (b, (t.forward b ready).2)) ∧
    r.1 = (match c.scheduler with
      | .off => ready
      | .plateau => t.schedule (some r.2.2) ready
      | .other => t.schedule none ready) := by
  have hf : ∀ (bs : List B) (s : S), (passBatches t.update bs s).1 = bs.foldl (fun s b => (t.update b s).1) s := by
    intro bs
    induction bs with
    | nil => intro s; rfl
    | cons b bs ih => intro s; simp only [passBatches, List.foldl_cons]; exact ih _
  intro o trained ready r
  have htr : (trainBatch t c (t.setTraining true s)).1 = trained := by
    unfold trainBatch; exact hf _ _
  have hev : evalBatches t c c.val (t.setTraining false trained)
      = (ready, c.mean (c.val.map fun b => (b, (t.forward b ready).2))) := by
    have h1 := evalBatches_state h c c.val trained
    have h2 : (evalBatches t c c.val (t.setTraining false trained)).2
        = c.mean (c.val.map fun b => (b, (t.forward b ready).2)) := by
      unfold evalBatches
      simp only
      rw [passForward_losses h _ _ (by rw [h.opened, h.mode])]
    exact Prod.ext h1 h2
  have hr : r = ((valBatch t c (t.setTraining false trained)).1, (trainBatch t c (t.setTraining true s)).2,
      (valBatch t c (t.setTraining false trained)).2) := by
    show trainOneEpoch t c s = _
    unfold trainOneEpoch
    simp only [htr]
  rw [hr]
  unfold valBatch
  rw [hev]
  cases c.scheduler <;> exact ⟨rfl, rfl⟩

/-- The steps a scheduler has seen so far, as a ghost of the state: only `schedule` adds to them. -/
structure Counts (t : Torch S B L) (seen : S → List (Option L)) : Prop where
  mode : ∀ b s, seen (t.setTraining b s) = seen s
  train : ∀ s, seen (t.openTrain s).1 = seen s
  eval : ∀ s, seen (t.openEval s) = seen s
  update : ∀ b s, seen (t.update b s).1 = seen s
  forward : ∀ b s, seen (t.forward b s).1 = seen s
  schedule : ∀ v s, seen (t.schedule v s) = seen s ++ [v]

theorem seen_pass {t : Torch S B L} {seen : S → List (Option L)} {f : B → S → S × L}
    (hf : ∀ b s, seen (f b s).1 = seen s) (data : List B) : ∀ s, seen (passBatches f data s).1 = seen s := by
  induction data with
  | nil => intro s; rfl
  | cons b bs ih => intro s; simp only [passBatches]; rw [ih, hf]

theorem seen_epoch {t : Torch S B L} {seen : S → List (Option L)} (hc : Counts t seen) (c : Setup B L) (s : S) :
    seen (trainOneEpoch t c s).1 = seen s ++ (match c.scheduler with
      | .off => []
      | .plateau => [some (trainOneEpoch t c s).2.2]
      | .other => [none]) := by
  have h1 : ∀ s, seen (trainBatch t c s).1 = seen s := by
    intro s
    unfold trainBatch
    simp only
    rw [seen_pass (t := t) hc.update, hc.train]
  have h2 : ∀ data s, seen (evalBatches t c data s).1 = seen s := by
    intro data s
    unfold evalBatches
    simp only
    rw [seen_pass (t := t) hc.forward, hc.eval]
  unfold trainOneEpoch valBatch
  cases c.scheduler
  · simp only [h2, hc.mode, h1, List.append_nil]
  · simp only [hc.schedule, h2, hc.mode, h1]
  · simp only [hc.schedule, h2, hc.mode, h1]

/-- C160: over a whole training call the scheduler is stepped exactly once per epoch that was run - for
`ReduceLROnPlateau` with that epoch's validation loss, in order - and never by the test evaluation. -/
theorem C160_steps (t : Torch S B (Loss K)) (c : Setup B (Loss K)) (seen : S → List (Option (Loss K)))
    (hc : Counts t seen) (weights : S → W) (loadWeights : W → S → S) (optState : S → O) (loadOpt : O → S → S)
    (hload : ∀ w s, seen (loadWeights w s) = seen s) (named : Bool) (n m : ℕ) (stop : ℕ → Bool) (hm : Runs stop 0 n m)
    (ckpt : Option (Checkpoint W O K)) (s : S) :
    let e := sessionOf t c weights loadWeights optState loadOpt
    seen (train e named n stop ckpt s).st = seen s ++ (match c.scheduler with
      | .off => []
      | .plateau => (List.range m).map fun j => some (valAt e 0 s j)
      | .other => (List.range m).map fun _ => none) := by
  intro e
  have hst : ∀ j, seen (stateAfter e 0 s j) = seen s ++ (match c.scheduler with
      | .off => []
      | .plateau => (List.range j).map fun j => some (valAt e 0 s j)
      | .other => (List.range j).map fun _ => none) := by
    intro j
    induction j with
    | zero => cases c.scheduler <;> simp [stateAfter]
    | succ j ih =>
      have := seen_epoch hc c (stateAfter e 0 s j)
      show seen (trainOneEpoch t c (stateAfter e 0 s j)).1 = _
      rw [this, ih]
      have hv : (trainOneEpoch t c (stateAfter e 0 s j)).2.2 = valAt e 0 s j := rfl
      cases c.scheduler
      · simp
      · simp only [hv, List.range_succ, List.map_append, List.map_cons, List.map_nil, List.append_assoc]
      · simp only [List.range_succ, List.map_append, List.map_cons, List.map_nil, List.append_assoc]
  have hfin : seen (train e named n stop ckpt s).st = seen (stateAfter e 0 s m) := by
    unfold train
    rw [epochLoop_eq e stop n 0 m hm]
    obtain ⟨h1, _⟩ := loopInv e 0 s (some ⊤) m
    unfold finishTraining
    simp only
    split
    · exact congrArg seen h1
    · split
      · split <;> exact (hload _ _).trans (congrArg seen h1)
      · exact (hload _ _).trans (congrArg seen h1)
  rw [hfin, hst]

/-- C160: no scheduler is stepped exactly when none was asked for, and the validation loss is handed over exactly to
`ReduceLROnPlateau`. -/
theorem C160_choice (kw : List (String × Arg)) (hd : (kw.map Prod.fst).Nodup) :
    (schedulerOf (initTrainer kw).2 = .off ↔ "lr_scheduler" ∉ kw.map Prod.fst ∨ ("lr_scheduler", Arg.none) ∈ kw) ∧
    (schedulerOf (initTrainer kw).2 = .plateau ↔ ("lr_scheduler", Arg.str "ReduceLROnPlateau") ∈ kw) := by
  by_cases hk : "lr_scheduler" ∈ kw.map Prod.fst
  · obtain ⟨⟨k, v⟩, hkv, rfl⟩ := List.mem_map.mp hk
    have hl := lookup_of_mem hd hkv
    have hu : ∀ a, ("lr_scheduler", a) ∈ kw ↔ a = v := fun a =>
      ⟨fun h => Option.some.inj ((lookup_of_mem hd h).symm.trans hl), fun h => h ▸ hkv⟩
    have hv : (initTrainer kw).2.lrScheduler = v := by
      simp only [initTrainer, kwGet]
      rw [hl]; rfl
    simp only [hu, schedulerOf, hv, hk, not_true_eq_false, false_or]
    cases v with
    | none => simp
    | str s =>
      simp only [Arg.str.injEq, reduceCtorEq, iff_false]
      by_cases hs : s = "ReduceLROnPlateau"
      · simp [hs]
      · simp [hs, Ne.symm hs]
    | _ => simp
  · have hl := lookup_of_not_mem hk
    have hv : (initTrainer kw).2.lrScheduler = .none := by
      simp only [initTrainer, kwGet, hl]; rfl
    have hn : ∀ a, ("lr_scheduler", a) ∉ kw := fun a h => hk (List.mem_map.mpr ⟨_, h, rfl⟩)
    simp [schedulerOf, hv, hk, hn]

example := C160_choice [("lr", .num 5), ("lr_scheduler", .str "StepLR")] (by decide)

/-- C161: the test data influence nothing but the reported test loss: weights, optimizer, checkpoint, losses of
the epochs and exceptions are the same for every other test set. -/
theorem C161_test_data (t : Torch S B (Loss K)) (c : Setup B (Loss K)) (test' : List B) (weights : S → W)
    (loadWeights : W → S → S) (optState : S → O) (loadOpt : O → S → S) (named : Bool) (n : ℕ) (stop : ℕ → Bool)
    (ckpt : Option (Checkpoint W O K)) (s : S) :
    let a := train (sessionOf t c weights loadWeights optState loadOpt) named n stop ckpt s
    let b := train (sessionOf t { c with test := test' } weights loadWeights optState loadOpt) named n stop ckpt s
    a.st = b.st ∧ a.ckpt = b.ckpt ∧ a.nEpochs = b.nEpochs ∧
    a.result.map (fun m => (m.trainLoss, m.valLoss)) = b.result.map (fun m => (m.trainLoss, m.valLoss)) := by
  have hloop : ∀ n k v, epochLoop (sessionOf t c weights loadWeights optState loadOpt) stop n k v
      = epochLoop (sessionOf t { c with test := test' } weights loadWeights optState loadOpt) stop n k v := by
    intro n
    induction n with
    | zero => intro k v; rfl
    | succ n ih => intro k v; simp only [epochLoop]; split; · rfl
                   · exact ih _ _
  intro a b
  show (train _ _ _ _ _ _).st = _ ∧ _
  simp only [a, b, train, hloop]
  generalize epochLoop (sessionOf t { c with test := test' } weights loadWeights optState loadOpt) stop n 0
    ⟨s, some ⊤, none, [], [], none⟩ = v
  unfold finishTraining
  simp only [sessionOf]
  split
  · exact ⟨rfl, rfl, rfl, rfl⟩
  · split
    · split <;> exact ⟨rfl, rfl, rfl, rfl⟩
    · exact ⟨rfl, rfl, rfl, rfl⟩

/-- C161: the reported test loss is the mean loss of the test batches, evaluated in evaluation mode with the weights of
the last epoch that was run. -/
theorem C161_test_loss (t : Torch S B (Loss K)) (ht : EvalPure t) (c : Setup B (Loss K)) (weights : S → W)
    (loadWeights : W → S → S) (optState : S → O) (loadOpt : O → S → S) (named : Bool) (n m : ℕ) (stop : ℕ → Bool)
    (hm : Runs stop 0 n m) (ckpt : Option (Checkpoint W O K)) (s : S) (metrics : Metrics K)
    (h : (train (sessionOf t c weights loadWeights optState loadOpt) named n stop ckpt s).result = .ok metrics) :
    let last := stateAfter (sessionOf t c weights loadWeights optState loadOpt) 0 s m
    metrics.testLoss = c.mean (c.test.map fun b => (b, (t.forward b (t.openEval (t.setTraining false last))).2)) := by
  intro last
  set e := sessionOf t c weights loadWeights optState loadOpt with he
  have htl : metrics.testLoss = e.testLoss last := by
    unfold train at h
    rw [epochLoop_eq e stop n 0 m hm] at h
    obtain ⟨h1, _⟩ := loopInv e 0 s (some ⊤) m
    generalize loop m (fun j => epochBody e (0 + j)) ⟨s, some ⊤, none, [], [], none⟩ = v at h h1
    unfold finishTraining at h
    simp only at h
    split at h
    · cases h
    · split at h
      · split at h
        · cases h
        · rw [← Except.ok.inj h, h1]
      · rw [← Except.ok.inj h, h1]
  rw [htl]
  show (evalBatches t c c.test (t.setTraining false last)).2 = _
  unfold evalBatches
  simp only
  rw [passForward_losses ht _ _ (by rw [ht.opened, ht.mode])]

/-- C161: unless the scheduler is `ReduceLROnPlateau`, the validation data do not influence the training: after every
epoch the state of the session (weights, optimizer, generators) and the training loss are the same for every other
validation set, so that the validation data only select which epoch's weights are kept. -/
theorem C161_validation_data (t : Torch S B (Loss K)) (ht : EvalPure t) (c : Setup B (Loss K)) (val' : List B)
    (hs : c.scheduler ≠ .plateau) (weights : S → W) (loadWeights : W → S → S) (optState : S → O) (loadOpt : O → S → S)
    (s : S) (j : ℕ) :
    let e := sessionOf t c weights loadWeights optState loadOpt
    let e' := sessionOf t { c with val := val' } weights loadWeights optState loadOpt
    stateAfter e 0 s j = stateAfter e' 0 s j ∧ trainAt e 0 s j = trainAt e' 0 s j := by
  intro e e'
  have hstep : ∀ s, (trainOneEpoch t c s).1 = (trainOneEpoch t { c with val := val' } s).1 := by
    intro s
    have h1 := (C160_epoch t c ht s).2
    have h2 := (C160_epoch t { c with val := val' } ht s).2
    rw [h1, h2]
    cases hcs : c.scheduler with
    | off => rfl
    | plateau => exact absurd hcs hs
    | other => rfl
  have hst : ∀ j, stateAfter e 0 s j = stateAfter e' 0 s j := by
    intro j
    induction j with
    | zero => rfl
    | succ j ih =>
      show (trainOneEpoch t c (stateAfter e 0 s j)).1 = (trainOneEpoch t { c with val := val' } (stateAfter e' 0 s j)).1
      rw [ih, hstep]
  refine ⟨hst j, ?_⟩
  show (trainOneEpoch t c (stateAfter e 0 s j)).2.1 = (trainOneEpoch t { c with val := val' } (stateAfter e' 0 s j)).2.1
  rw [hst j]
  rfl

/-- C161: with `ReduceLROnPlateau` the validation data influence the state only through their mean losses: two
validation sets with the same loss in every state train the same model. -/
theorem C161_validation_loss_only (t : Torch S B (Loss K)) (ht : EvalPure t) (c : Setup B (Loss K)) (val' : List B)
    (hv : ∀ s, t.training s = false → c.mean (c.val.map fun b => (b, (t.forward b s).2))
      = c.mean (val'.map fun b => (b, (t.forward b s).2))) (s : S) :
    trainOneEpoch t c s = trainOneEpoch t { c with val := val' } s := by
  have h1 := C160_epoch t c ht s
  have h2 := C160_epoch t { c with val := val' } ht s
  simp only at h1 h2
  have hl : (trainOneEpoch t c s).2.2 = (trainOneEpoch t { c with val := val' } s).2.2 := by
    rw [h1.1, h2.1]
    exact hv _ (by rw [ht.opened, ht.mode])
  refine Prod.ext ?_ (Prod.ext rfl hl)
  rw [h1.2, h2.2, hl]

end Epoch

/-! ### A toy trainer: a counter of updates, the mode and the record of scheduler steps -/

/-- State: number of updates, mode, scheduler steps. -/
def exToyTorch : Torch (ℕ × Bool × List (Option (Loss ℚ))) ℕ (Loss ℚ) where
  training := fun s => s.2.1
  setTraining := fun b s => (s.1, b, s.2.2)
  openTrain := fun s => (s, [1, 2])
  openEval := fun s => s
  update := fun b s => ((s.1 + b, s.2.1, s.2.2), some ((10 / (s.1 + 1) : ℚ) : WithTop ℚ))
  forward := fun b s => (if s.2.1 then (s.1 + 1, s.2.1, s.2.2) else s, some (((b : ℚ) / (s.1 + 1) : ℚ) : WithTop ℚ))
  schedule := fun v s => (s.1, s.2.1, s.2.2 ++ [v])

theorem exToyTorch_pure : EvalPure exToyTorch where
  mode := fun _ _ => rfl
  opened := fun _ => rfl
  forward := fun b s h => by
    have h' : s.2.1 = false := h
    show (if s.2.1 then _ else s) = s
    rw [h']; rfl

theorem exToyTorch_counts : Counts exToyTorch (fun s => s.2.2) where
  mode := fun _ _ => rfl
  train := fun _ => rfl
  eval := fun _ => rfl
  update := fun _ _ => rfl
  forward := fun b s => by
    show (if s.2.1 then (s.1 + 1, s.2.1, s.2.2) else s).2.2 = s.2.2
    split <;> rfl
  schedule := fun _ _ => rfl

/-- Validation on batches 3 and 4, test on 5. -/
def exSetup : Setup ℕ (Loss ℚ) where
  val := [3, 4]
  test := [5]
  mean := fun l => (l.head?.map Prod.snd).getD none
  meanTrain := fun l => (l.head?.map Prod.snd).getD none
  scheduler := .plateau

example := C160_epoch exToyTorch exSetup exToyTorch_pure (0, true, [])

example := C160_steps (W := ℕ) (O := Unit) exToyTorch exSetup (fun s => s.2.2) exToyTorch_counts (fun s => s.1)
  (fun w s => (w, s.2)) (fun _ => ()) (fun _ s => s) (fun _ _ => rfl) true 3 3 (fun _ => false)
  ⟨le_rfl, fun _ _ => rfl, fun h => absurd h (lt_irrefl _)⟩ none (0, true, [])

example : ∃ metrics, (train (sessionOf (W := ℕ) (O := Unit) exToyTorch exSetup (fun s => s.1) (fun w s => (w, s.2))
    (fun _ => ()) (fun _ s => s)) true 3 (fun _ => false) none (0, true, [])).result = .ok metrics ∧
    metrics.testLoss = some ((5 / 10 : ℚ) : WithTop ℚ) := by
  have h := C161_test_loss (W := ℕ) (O := Unit) exToyTorch exToyTorch_pure exSetup (fun s => s.1) (fun w s => (w, s.2))
    (fun _ => ()) (fun _ s => s) true 3 3 (fun _ => false) ⟨le_rfl, fun _ _ => rfl, fun h => absurd h (lt_irrefl _)⟩
    none (0, true, [])
  have hd : (match (train (sessionOf (W := ℕ) (O := Unit) exToyTorch exSetup (fun s => s.1) (fun w s => (w, s.2))
    (fun _ => ()) (fun _ s => s)) true 3 (fun _ => false) none (0, true, [])).result with
    | .ok _ => true | .error _ => false) = true := by decide +kernel
  cases hr : (train (sessionOf (W := ℕ) (O := Unit) exToyTorch exSetup (fun s => s.1) (fun w s => (w, s.2))
    (fun _ => ()) (fun _ s => s)) true 3 (fun _ => false) none (0, true, [])).result with
  | error e => rw [hr] at hd; cases hd
  | ok m =>
    refine ⟨m, rfl, (h m hr).trans ?_⟩
    decide +kernel

example := C159_unknown_names (fun _ => none) (fun _ => none) (fun _ => none) (initTrainer []).2 "Adam"

example := C161_validation_data (W := ℕ) (O := Unit) exToyTorch exToyTorch_pure { exSetup with scheduler := .other } [7]
  (by decide) (fun s => s.1) (fun w s => (w, s.2)) (fun _ => ()) (fun _ s => s) (0, true, []) 4

example := C161_validation_loss_only exToyTorch exToyTorch_pure exSetup [3, 9] (fun _ _ => rfl) (0, true, [])

end Discrete1.Props
