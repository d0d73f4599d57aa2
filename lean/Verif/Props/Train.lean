import Verif.Model.Train
import Mathlib.Algebra.BigOperators.Group.List.Basic
import Mathlib.Algebra.Order.Field.Basic
import Mathlib.Data.Rat.Defs
import Mathlib.Tactic.FieldSimp
import Mathlib.Tactic.Ring
import Mathlib.Tactic.Linarith
import Mathlib.Tactic.NormNum
import Mathlib.Tactic.Push
import Mathlib.Tactic.IntervalCases

set_option linter.unusedSectionVars false
set_option linter.unusedSimpArgs false

/-!
# C61, C62, C84-C89: training, tuning objective, prediction
-/

namespace Discrete1.Props

open Discrete1.Ml

/-! ### Specification of an epoch history -/

section Spec
variable {S W O K : Type} [LinearOrder K]

/-- The session after `j` epochs whose numbers start at `first`. -/
def stateAfter (e : Session S W O K) (first : ℕ) (s : S) : ℕ → S
  | 0 => s
  | j + 1 => (e.epoch (first + j) (stateAfter e first s j)).1

/-- Validation loss of the `j`-th of these epochs. -/
def valAt (e : Session S W O K) (first : ℕ) (s : S) (j : ℕ) : Loss K :=
  (e.epoch (first + j) (stateAfter e first s j)).2.2

/-- Training loss of the `j`-th of these epochs. -/
def trainAt (e : Session S W O K) (first : ℕ) (s : S) (j : ℕ) : Loss K :=
  (e.epoch (first + j) (stateAfter e first s j)).2.1

/-- Out of `n` planned epochs starting at number `first`, `m` are run: the stop flag is down before each of
them, and up before the next one if one was planned. -/
def Runs (stop : ℕ → Bool) (first n m : ℕ) : Prop :=
  m ≤ n ∧ (∀ j < m, stop (first + j) = false) ∧ (m < n → stop (first + m) = true)

/-- Epoch `i` is the first of the `m` epochs whose loss is smallest; NaN losses do not take part. -/
def FirstBest (v : ℕ → Loss K) (m i : ℕ) : Prop :=
  i < m ∧ ∃ x, v i = some x ∧ (∀ j < m, ∀ y, v j = some y → x ≤ y) ∧ ∀ j < i, ∀ y, v j = some y → x < y

/-- There is always exactly one number of epochs run. -/
theorem runs_exists (stop : ℕ → Bool) (first n : ℕ) : ∃! m, Runs stop first n m := by
  have hex : ∃ m, Runs stop first n m := by
    induction n with
    | zero => exact ⟨0, le_rfl, by intro j hj; omega, by omega⟩
    | succ n ih =>
      obtain ⟨m, h1, h2, h3⟩ := ih
      rcases Nat.lt_or_ge m n with h | h
      · exact ⟨m, by omega, h2, fun _ => h3 h⟩
      · have : m = n := by omega
        subst this
        rcases hs : stop (first + m) with _ | _
        · refine ⟨m + 1, le_rfl, ?_, by omega⟩
          intro j hj
          rcases Nat.lt_or_ge j m with h' | h'
          · exact h2 j h'
          · have : j = m := by omega
            subst this; exact hs
        · exact ⟨m, by omega, h2, fun _ => hs⟩
  obtain ⟨m, hm⟩ := hex
  refine ⟨m, hm, ?_⟩
  intro k hk
  rcases lt_trichotomy k m with h | h | h
  · have := hk.2.2 (by have := hm.1; omega)
    rw [hm.2.1 k h] at this; cases this
  · exact h
  · have := hm.2.2 (by have := hk.1; omega)
    rw [hk.2.1 m h] at this; cases this

end Spec

/-! ### The epoch loop -/

section Loop
variable {S W O K : Type} [LinearOrder K]

theorem loop_front {α : Type*} (m : ℕ) (f : ℕ → α → α) (a : α) :
    loop (m + 1) f a = loop m (fun j => f (j + 1)) (f 0 a) := by
  induction m with
  | zero => rfl
  | succ m ih =>
    show f (m + 1) (loop (m + 1) f a) = f (m + 1) (loop m (fun j => f (j + 1)) (f 0 a))
    rw [ih]

theorem epochLoop_eq (e : Session S W O K) (stop : ℕ → Bool) (n : ℕ) : ∀ (first m : ℕ),
    Runs stop first n m → ∀ v, epochLoop e stop n first v = loop m (fun j => epochBody e (first + j)) v := by
  induction n with
  | zero =>
    intro first m h v
    have : m = 0 := by have := h.1; omega
    subst this; rfl
  | succ n ih =>
    intro first m h v
    rw [epochLoop]
    cases m with
    | zero =>
      have hs := h.2.2 (by omega)
      rw [Nat.add_zero] at hs
      rw [if_pos hs]; rfl
    | succ m =>
      have hs := h.2.1 0 (by omega)
      rw [Nat.add_zero] at hs
      rw [if_neg (by rw [hs]; decide), loop_front]
      have hr : Runs stop (first + 1) n m := by
        refine ⟨by have := h.1; omega, ?_, ?_⟩
        · intro j hj
          have := h.2.1 (j + 1) (by omega)
          rwa [show first + 1 + j = first + (j + 1) by omega]
        · intro hlt
          have := h.2.2 (by omega)
          rwa [show first + 1 + m = first + (m + 1) by omega]
      rw [ih (first + 1) m hr]
      simp only [Nat.add_zero]
      have : (fun j => epochBody e (first + 1 + j)) = fun j => epochBody e (first + (j + 1)) := by
        funext j; rw [show first + 1 + j = first + (j + 1) by omega]
      rw [this]

/-- What the loop variables hold after `m` epochs. -/
def LoopInv (e : Session S W O K) (first : ℕ) (s : S) (b0 : Loss K) (m : ℕ) (v : LoopVars S W K) : Prop :=
  v.st = stateAfter e first s m ∧
  v.trainHist = (List.range m).map (trainAt e first s) ∧
  v.valHist = (List.range m).map (valAt e first s) ∧
  v.last = (if m = 0 then none else some (first + m - 1)) ∧
  ((v.bestW = none ∧ v.best = b0 ∧ ∀ j < m, lossLt (valAt e first s j) b0 = false) ∨
   ∃ i, FirstBest (valAt e first s) m i ∧ lossLt (valAt e first s i) b0 = true ∧
     v.best = valAt e first s i ∧ v.bestW = some (e.weights (stateAfter e first s (i + 1))))

theorem lossLt_iff (a b : Loss K) : lossLt a b = true ↔ ∃ x y, a = some x ∧ b = some y ∧ x < y := by
  cases a <;> cases b <;> simp [lossLt]

theorem loopInv (e : Session S W O K) (first : ℕ) (s : S) (b0 : Loss K) (m : ℕ) :
    LoopInv e first s b0 m (loop m (fun j => epochBody e (first + j)) ⟨s, b0, none, [], [], none⟩) := by
  induction m with
  | zero => exact ⟨rfl, rfl, rfl, rfl, Or.inl ⟨rfl, rfl, by intro j hj; omega⟩⟩
  | succ m ih =>
    rw [loop]
    generalize loop m (fun j => epochBody e (first + j)) ⟨s, b0, none, [], [], none⟩ = v at ih
    obtain ⟨h1, h2, h3, h4, h5⟩ := ih
    have hval : (e.epoch (first + m) v.st).2.2 = valAt e first s m := by rw [h1]; rfl
    have htr : (e.epoch (first + m) v.st).2.1 = trainAt e first s m := by rw [h1]; rfl
    have hst : (e.epoch (first + m) v.st).1 = stateAfter e first s (m + 1) := by rw [h1]; rfl
    unfold epochBody
    simp only [hval, htr, hst]
    by_cases hlt : lossLt (valAt e first s m) v.best = true
    · rw [if_pos hlt]
      obtain ⟨x, y, hx, hy, hxy⟩ := (lossLt_iff _ _).mp hlt
      refine ⟨rfl, ?_, ?_, ?_, Or.inr ⟨m, ⟨by omega, x, hx, ?_⟩, ?_, rfl, rfl⟩⟩
      · rw [h2, List.range_succ, List.map_append, List.map_singleton]
      · rw [h3, List.range_succ, List.map_append, List.map_singleton]
      · rw [if_neg (by omega)]; rfl
      · have hstrict : ∀ j < m, ∀ z, valAt e first s j = some z → x < z := by
          intro j hj z hz
          rcases h5 with ⟨-, hb, hno⟩ | ⟨i, ⟨-, w, hw, hmin, -⟩, -, hb, -⟩
          · have hn := hno j hj
            rw [hz, ← hb, hy] at hn
            simp only [lossLt, decide_eq_false_iff_not, not_lt] at hn
            exact lt_of_lt_of_le hxy hn
          · rw [hb, hw] at hy
            cases hy
            exact lt_of_lt_of_le hxy (hmin j hj z hz)
        refine ⟨?_, hstrict⟩
        intro j hj z hz
        rcases Nat.lt_or_ge j m with h | h
        · exact (hstrict j h z hz).le
        · have : j = m := by omega
          subst this; rw [hx] at hz; cases hz; exact le_rfl
      · rcases h5 with ⟨-, hb, -⟩ | ⟨i, -, hlt', hb, -⟩
        · rw [← hb]; exact hlt
        · obtain ⟨a, c, ha, hc, hac⟩ := (lossLt_iff _ _).mp hlt'
          rw [hb, ha] at hy
          cases hy
          exact (lossLt_iff _ _).mpr ⟨x, c, hx, hc, hxy.trans hac⟩
    · rw [if_neg hlt]
      refine ⟨rfl, ?_, ?_, ?_, ?_⟩
      · rw [h2, List.range_succ, List.map_append, List.map_singleton]
      · rw [h3, List.range_succ, List.map_append, List.map_singleton]
      · rw [if_neg (by omega)]; rfl
      · have hf : lossLt (valAt e first s m) v.best = false := by simpa using hlt
        rcases h5 with ⟨hw, hb, hno⟩ | ⟨i, ⟨him, x, hx, hmin, hst'⟩, hlt', hb, hw⟩
        · refine Or.inl ⟨hw, hb, ?_⟩
          intro j hj
          rcases Nat.lt_or_ge j m with h | h
          · exact hno j h
          · have : j = m := by omega
            subst this; rw [← hb]; exact hf
        · refine Or.inr ⟨i, ⟨by omega, x, hx, ?_, hst'⟩, hlt', hb, hw⟩
          intro j hj z hz
          rcases Nat.lt_or_ge j m with h | h
          · exact hmin j h z hz
          · have : j = m := by omega
            subst this
            rw [hz, hb, hx] at hf
            simpa [lossLt] using hf

end Loop

/-! ### C61, C62 -/

section Training
variable {S W O K : Type} [LinearOrder K]

/-- C61: if at least one of the `m` epochs that were run (all `n`, or those before the stop flag went up) has a
validation loss below infinity, `train` completes, the model carries the weights as they were after the first
epoch with the smallest validation loss, the histories list every epoch run in order, and the checkpoint (if
named) records `m`, these weights and this loss.  The full property has no such condition. -/
theorem C61_best_weights_partial (e : Session S W O K)
    (hload : ∀ w s, e.weights (e.loadWeights w s) = w) (named : Bool) (n m : ℕ) (stop : ℕ → Bool)
    (hm : Runs stop 0 n m) (ckpt : Option (Checkpoint W O K)) (s : S)
    (hfin : ∃ j < m, ∃ x, valAt e 0 s j = some x ∧ x < ⊤) :
    ∃ i, FirstBest (valAt e 0 s) m i ∧
      e.weights (train e named n stop ckpt s).st = e.weights (stateAfter e 0 s (i + 1)) ∧
      (∃ r, (train e named n stop ckpt s).result = .ok r ∧
        r.trainLoss = (List.range m).map (trainAt e 0 s) ∧
        r.valLoss = (List.range m).map (valAt e 0 s)) ∧
      (named = true → ∃ c, (train e named n stop ckpt s).ckpt = some c ∧ c.epoch = m ∧
        c.weights = e.weights (stateAfter e 0 s (i + 1)) ∧ c.best = valAt e 0 s i) ∧
      (named = false → (train e named n stop ckpt s).ckpt = ckpt) := by
  obtain ⟨h1, h2, h3, h4, h5⟩ := loopInv e 0 s (some ⊤) m
  rw [← epochLoop_eq e stop n 0 m hm] at h1 h2 h3 h4 h5
  unfold train
  generalize epochLoop e stop n 0 ⟨s, some ⊤, none, [], [], none⟩ = v at *
  rcases h5 with ⟨-, -, hno⟩ | ⟨i, hi, -, hb, hw⟩
  · obtain ⟨j, hj, x, hx, hlt⟩ := hfin
    have := hno j hj
    rw [hx] at this
    simp only [lossLt, decide_eq_false_iff_not] at this
    exact absurd hlt this
  · have hm0 : m ≠ 0 := by have := hi.1; omega
    rw [if_neg hm0] at h4
    refine ⟨i, hi, ?_⟩
    cases named with
    | true =>
      simp only [finishTraining, hw, h4, if_true]
      refine ⟨hload _ _, ⟨_, rfl, h2, h3⟩, fun _ => ⟨_, rfl, ?_, hload _ _, hb⟩, by intro h; cases h⟩
      show 0 + m - 1 + 1 = m
      omega
    | false =>
      simp only [finishTraining, hw, Bool.false_eq_true, if_false]
      exact ⟨hload _ _, ⟨_, rfl, h2, h3⟩, (by intro h; cases h), fun _ => trivial⟩

/-- C61, where the property fails: if no epoch run has a validation loss below infinity (no epoch at all, every
loss NaN or infinite, or Ctrl+C before the first epoch) `train` raises TypeError after the training: the model
keeps the weights of the last epoch, no metrics are stored and no checkpoint is written. -/
theorem C61_violation_no_best (e : Session S W O K) (named : Bool) (n m : ℕ) (stop : ℕ → Bool)
    (hm : Runs stop 0 n m) (ckpt : Option (Checkpoint W O K)) (s : S)
    (hno : ∀ j < m, ∀ x, valAt e 0 s j = some x → x = ⊤) :
    train e named n stop ckpt s = ⟨stateAfter e 0 s m, ckpt, n, .error .typeError⟩ := by
  obtain ⟨h1, -, -, -, h5⟩ := loopInv e 0 s (some ⊤) m
  rw [← epochLoop_eq e stop n 0 m hm] at h1 h5
  unfold train
  generalize epochLoop e stop n 0 ⟨s, some ⊤, none, [], [], none⟩ = v at *
  rcases h5 with ⟨hw, -, -⟩ | ⟨i, hi, hlt, -, -⟩
  · simp only [finishTraining, hw, h1]
  · obtain ⟨x, y, hx, hy, hxy⟩ := (lossLt_iff _ _).mp hlt
    cases hy
    rw [hno i hi.1 x hx] at hxy
    exact absurd hxy (lt_irrefl _)

/-- C62: if one of the `m` new epochs beats the loss stored in the checkpoint, `continue_training` completes,
the model carries the weights after the first new epoch with the smallest loss (which is better than the
checkpoint's), the epoch numbers continue from the checkpoint and the new checkpoint counts all of them.
The full property has no such condition. -/
theorem C62_best_weights_partial (e : Session S W O K)
    (hload : ∀ w s, e.weights (e.loadWeights w s) = w) (n m : ℕ) (stop : ℕ → Bool) (c : Checkpoint W O K)
    (hm : Runs stop c.epoch n m) (s s0 : S) (hs0 : s0 = e.loadOpt c.opt (e.loadWeights c.weights s))
    (himp : ∃ j < m, lossLt (valAt e c.epoch s0 j) c.best = true) :
    ∃ i, FirstBest (valAt e c.epoch s0) m i ∧ lossLt (valAt e c.epoch s0 i) c.best = true ∧
      e.weights (continueTraining e n stop (some c) s).st = e.weights (stateAfter e c.epoch s0 (i + 1)) ∧
      (∃ r, (continueTraining e n stop (some c) s).result = .ok r ∧
        r.trainLoss = (List.range m).map (trainAt e c.epoch s0) ∧
        r.valLoss = (List.range m).map (valAt e c.epoch s0)) ∧
      ∃ c', (continueTraining e n stop (some c) s).ckpt = some c' ∧ c'.epoch = c.epoch + m ∧
        c'.weights = e.weights (stateAfter e c.epoch s0 (i + 1)) ∧ c'.best = valAt e c.epoch s0 i := by
  obtain ⟨h1, h2, h3, h4, h5⟩ := loopInv e c.epoch s0 c.best m
  rw [← epochLoop_eq e stop n c.epoch m hm] at h1 h2 h3 h4 h5
  simp only [continueTraining, Nat.add_sub_cancel, ← hs0]
  generalize epochLoop e stop n c.epoch ⟨s0, c.best, none, [], [], none⟩ = v at *
  rcases h5 with ⟨-, -, hno⟩ | ⟨i, hi, hlt, hb, hw⟩
  · obtain ⟨j, hj, hlt⟩ := himp
    rw [hno j hj] at hlt; cases hlt
  · have hm0 : m ≠ 0 := by have := hi.1; omega
    rw [if_neg hm0] at h4
    refine ⟨i, hi, hlt, ?_⟩
    simp only [finishTraining, hw, h4, if_true]
    refine ⟨hload _ _, ⟨_, rfl, h2, h3⟩, _, rfl, ?_, hload _ _, hb⟩
    show c.epoch + m - 1 + 1 = c.epoch + m
    omega

/-- C62, where the property fails: if no new epoch beats the checkpoint, `continue_training` raises TypeError
and the model is left with the weights of the last new epoch, not with the checkpointed ones; the checkpoint
file still holds them. -/
theorem C62_violation_no_improvement (e : Session S W O K) (n m : ℕ) (stop : ℕ → Bool)
    (c : Checkpoint W O K) (hm : Runs stop c.epoch n m) (s s0 : S)
    (hs0 : s0 = e.loadOpt c.opt (e.loadWeights c.weights s))
    (hno : ∀ j < m, lossLt (valAt e c.epoch s0 j) c.best = false) :
    continueTraining e n stop (some c) s
      = ⟨stateAfter e c.epoch s0 m, some c, n + c.epoch, .error .typeError⟩ := by
  obtain ⟨h1, -, -, -, h5⟩ := loopInv e c.epoch s0 c.best m
  rw [← epochLoop_eq e stop n c.epoch m hm] at h1 h5
  simp only [continueTraining, Nat.add_sub_cancel, ← hs0]
  generalize epochLoop e stop n c.epoch ⟨s0, c.best, none, [], [], none⟩ = v at *
  rcases h5 with ⟨hw, -, -⟩ | ⟨i, hi, hlt, -, -⟩
  · simp only [finishTraining, hw, h1]
  · rw [hno i hi.1] at hlt; cases hlt

/-! ### C84: how many epochs a continuation trains -/

/-- One continuation after another, never interrupted: the outcomes, oldest first. -/
def continueTimes (e : Session S W O K) : ℕ → TrainEnd S W O K → TrainEnd S W O K
  | 0, t => t
  | k + 1, t =>
    let t := continueTimes e k t
    continueTraining e t.nEpochs (fun _ => false) t.ckpt t.st

/-- C84: after `train` with `n` epochs, the `k`-th uninterrupted continuation trains `2^(k-1) n` epochs, not
`n`: each call adds the checkpoint's epoch number to `n_epochs` once more.  (As long as each call finds a better
epoch, otherwise it raises, C62.) -/
theorem C84_violation_doubling (e : Session S W O K) (n : ℕ) (t : TrainEnd S W O K) (ht : t.nEpochs = n)
    (hc : ∃ c, t.ckpt = some c ∧ c.epoch = n) (k : ℕ)
    (hok : ∀ j ≤ k, 0 < j → ∃ r, (continueTimes e j t).result = .ok r) :
    (continueTimes e k t).nEpochs = 2 ^ k * n ∧
      (∃ c, (continueTimes e k t).ckpt = some c ∧ c.epoch = 2 ^ k * n) ∧
      ∀ j < k, ∃ r, (continueTimes e (j + 1) t).result = .ok r ∧ r.valLoss.length = 2 ^ j * n := by
  induction k with
  | zero =>
    refine ⟨by simpa [continueTimes] using ht, ?_, by intro j hj; omega⟩
    simpa [continueTimes] using hc
  | succ k ih =>
    obtain ⟨hn, ⟨c, hcc, hce⟩, hlen⟩ := ih fun j hj h0 => hok j (by omega) h0
    obtain ⟨r, hr⟩ := hok (k + 1) le_rfl (by omega)
    have hrun : Runs (fun _ => false) c.epoch (2 ^ k * n) (2 ^ k * n) :=
      ⟨le_rfl, fun _ _ => rfl, by omega⟩
    have key : ∃ (s0 : S), s0 = e.loadOpt c.opt (e.loadWeights c.weights (continueTimes e k t).st) := ⟨_, rfl⟩
    obtain ⟨s0, hs0⟩ := key
    have hstep : continueTimes e (k + 1) t
        = continueTraining e (2 ^ k * n) (fun _ => false) (some c) (continueTimes e k t).st := by
      rw [continueTimes]; simp only [hn, hcc]
    obtain ⟨h1, h2, h3, h4, h5⟩ := loopInv e c.epoch s0 c.best (2 ^ k * n)
    rw [← epochLoop_eq e _ _ _ _ hrun] at h1 h2 h3 h4 h5
    have hform : continueTimes e (k + 1) t = finishTraining e true (some c) (2 ^ k * n + c.epoch)
        (epochLoop e (fun _ => false) (2 ^ k * n) c.epoch ⟨s0, c.best, none, [], [], none⟩) := by
      rw [hstep]; simp only [continueTraining, Nat.add_sub_cancel, ← hs0]
    rw [hform] at hr ⊢
    generalize epochLoop e (fun _ => false) (2 ^ k * n) c.epoch ⟨s0, c.best, none, [], [], none⟩ = v at *
    rcases h5 with ⟨hw, -, -⟩ | ⟨i, hi, -, -, hw⟩
    · simp only [finishTraining, hw] at hr; cases hr
    · have hm0 : 2 ^ k * n ≠ 0 := by have := hi.1; omega
      rw [if_neg hm0] at h4
      simp only [finishTraining, hw, h4, if_true]
      refine ⟨?_, ⟨_, rfl, ?_⟩, ?_⟩
      · rw [hce, pow_succ]; ring
      · show c.epoch + 2 ^ k * n - 1 + 1 = 2 ^ (k + 1) * n
        have h2 : 2 ^ (k + 1) * n = 2 ^ k * n + 2 ^ k * n := by rw [pow_succ]; ring
        rw [hce, h2]; omega
      · intro j hj
        rcases Nat.lt_or_ge j k with h | h
        · exact hlen j h
        · have : j = k := by omega
          subst this
          rw [hform]
          simp only [finishTraining, hw, h4, if_true]
          exact ⟨_, rfl, by rw [h3, List.length_map, List.length_range]⟩

/-! ### C85: the reported test loss -/

/-- C85: whenever `train` completes, the reported test loss is that of the weights after the *last* epoch run,
although the model it leaves carries the weights of the best epoch. -/
theorem C85_violation_test_loss_of_last_epoch (e : Session S W O K) (named : Bool) (n m : ℕ) (stop : ℕ → Bool)
    (hm : Runs stop 0 n m) (ckpt : Option (Checkpoint W O K)) (s : S) (r : Metrics K)
    (hr : (train e named n stop ckpt s).result = .ok r) :
    r.testLoss = e.testLoss (stateAfter e 0 s m) := by
  obtain ⟨h1, -, -, -, -⟩ := loopInv e 0 s (some ⊤) m
  rw [← epochLoop_eq e stop n 0 m hm] at h1
  unfold train at hr
  generalize epochLoop e stop n 0 ⟨s, some ⊤, none, [], [], none⟩ = v at *
  unfold finishTraining at hr
  cases hw : v.bestW with
  | none => simp only [hw] at hr; cases hr
  | some w =>
    simp only [hw] at hr
    split at hr
    · split at hr
      · cases hr
      · cases hr; rw [← h1]
    · cases hr; rw [← h1]

end Training

/-! ### A concrete session -/

/-- Weights are a number, one more per epoch; the validation losses are 5, 3, 4, 3, 2, NaN, ... ; the test loss is the
weight. -/
def exSession : Session ℕ ℕ Unit ℚ where
  epoch k w := (w + 1, some ((k : ℚ) : WithTop ℚ), ([some 5, some 3, some 4, some 3, some 2] : List (Loss ℚ)).getD k none)
  weights := id
  loadWeights w _ := w
  optState _ := ()
  loadOpt _ s := s
  testLoss w := some ((w : ℚ) : WithTop ℚ)

theorem exVal (j : ℕ) : valAt exSession 0 0 j = ([some 5, some 3, some 4, some 3, some 2] : List (Loss ℚ)).getD j none := by
  simp [valAt, exSession]

/-- non-vacuity of C61: three epochs with losses 5, 3, 4; the hypotheses hold. -/
example : Runs (fun _ => false) 0 3 3 ∧ (∃ j < 3, ∃ x, valAt exSession 0 0 j = some x ∧ x < ⊤) ∧
    ∀ w s, exSession.weights (exSession.loadWeights w s) = w := by
  refine ⟨⟨le_rfl, fun _ _ => rfl, by omega⟩, ⟨1, by omega, 3, by rw [exVal]; rfl, WithTop.coe_lt_top 3⟩, fun _ _ => rfl⟩

/-- and with an interrupt during the second epoch. -/
example : Runs (fun k => decide (2 ≤ k)) 0 5 2 := by
  refine ⟨by omega, ?_, ?_⟩
  · intro j hj; simp; omega
  · intro _; simp

/-- non-vacuity of C61's violation: no epoch. -/
example : Runs (fun _ => false) 0 0 0 ∧ ∀ j < 0, ∀ x, valAt exSession 0 0 j = some x → x = ⊤ :=
  ⟨⟨le_rfl, by intro j hj; omega, by omega⟩, by intro j hj; omega⟩

/-- non-vacuity of C62: a checkpoint after two epochs with loss 3; of the next three (4, 3, 2) only the last one
is better; of the next two none is. -/
example : (∃ j < 3, lossLt (valAt exSession 2 2 j) (some 3) = true) ∧
    ∀ j < 2, lossLt (valAt exSession 2 2 j) (some 3) = false := by
  have h : ∀ j, valAt exSession 2 2 j = ([some 5, some 3, some 4, some 3, some 2] : List (Loss ℚ)).getD (2 + j) none := by
    intro j; simp [valAt, exSession]
  have h32 : (2 : WithTop ℚ) < 3 := by
    have : ((2 : ℚ) : WithTop ℚ) < ((3 : ℚ) : WithTop ℚ) := WithTop.coe_lt_coe.mpr (by norm_num)
    exact this
  have h43 : ¬ (4 : WithTop ℚ) < 3 := by
    have : ¬ ((4 : ℚ) : WithTop ℚ) < ((3 : ℚ) : WithTop ℚ) := by rw [WithTop.coe_lt_coe]; norm_num
    exact this
  refine ⟨⟨2, by omega, ?_⟩, ?_⟩
  · rw [h]; simp [lossLt, h32]
  · intro j hj
    rw [h]
    interval_cases j
    · simp [lossLt, h43]
    · simp [lossLt]

/-- A session whose loss falls with every epoch: 100, 99, ... -/
def exFalling : Session ℕ ℕ Unit ℕ where
  epoch k w := (w + 1, some (k : WithTop ℕ), some ((100 - k : ℕ) : WithTop ℕ))
  weights := id
  loadWeights w _ := w
  optState _ := ()
  loadOpt _ s := s
  testLoss w := some (w : WithTop ℕ)

/-- non-vacuity of C84: two epochs of `train`, then continuations that train 2, then 4 epochs. -/
example : (train exFalling true 2 (fun _ => false) none 0).nEpochs = 2 ∧
    (∃ c, (train exFalling true 2 (fun _ => false) none 0).ckpt = some c ∧ c.epoch = 2) ∧
    ∀ j ≤ 2, 0 < j → ∃ r, (continueTimes exFalling j (train exFalling true 2 (fun _ => false) none 0)).result
      = .ok r := by
  refine ⟨rfl, ⟨_, rfl, rfl⟩, ?_⟩
  intro j hj h0
  interval_cases j
  · exact ⟨_, rfl⟩
  · exact ⟨_, rfl⟩

/-- C85: a concrete run in which the reported test loss is not that of the model: three epochs with losses
5, 3, 4 leave the weights of the second epoch but report the test loss of the third. -/
theorem C85_violation_example :
    ∃ r, (train exSession false 3 (fun _ => false) none 0).result = .ok r ∧
      r.testLoss ≠ exSession.testLoss (train exSession false 3 (fun _ => false) none 0).st := by
  have hruns : Runs (fun _ => false) 0 3 3 := ⟨le_rfl, fun _ _ => rfl, by omega⟩
  have hfin : ∃ j < 3, ∃ x, valAt exSession 0 0 j = some x ∧ x < ⊤ :=
    ⟨1, by omega, 3, by rw [exVal]; rfl, WithTop.coe_lt_top 3⟩
  obtain ⟨i, hi, hw, ⟨r, hr, -, -⟩, -, -⟩ := C61_best_weights_partial exSession (fun _ _ => rfl) false 3 3 _ hruns
    none 0 hfin
  have ht := C85_violation_test_loss_of_last_epoch exSession false 3 3 _ hruns none 0 r hr
  refine ⟨r, hr, ?_⟩
  have hst : ∀ j, stateAfter exSession 0 0 j = j := by
    intro j
    induction j with
    | zero => rfl
    | succ j ih => rw [stateAfter, ih]; rfl
  have hi1 : i ≠ 2 := by
    rintro rfl
    obtain ⟨-, x, hx, -, hmin⟩ := hi
    have h1 := hmin 1 (by omega) 3 (by rw [exVal]; rfl)
    rw [exVal] at hx
    cases hx
    have : ¬ ((4 : ℚ) : WithTop ℚ) < ((3 : ℚ) : WithTop ℚ) := by rw [WithTop.coe_lt_coe]; norm_num
    exact this h1
  have hw' : (train exSession false 3 (fun _ => false) none 0).st = i + 1 := by
    have : exSession.weights (train exSession false 3 (fun _ => false) none 0).st
      = exSession.weights (stateAfter exSession 0 0 (i + 1)) := hw
    rw [hst] at this; exact this
  rw [ht, hst, hw']
  intro heq
  have h1 : (((3 : ℕ) : ℚ) : WithTop ℚ) = (((i + 1 : ℕ) : ℚ) : WithTop ℚ) := Option.some.inj heq
  have h2 : ((3 : ℕ) : ℚ) = ((i + 1 : ℕ) : ℚ) := WithTop.coe_injective h1
  have h3 : 3 = i + 1 := by exact_mod_cast h2
  omega

/-! ### C86: losses are sample means -/

section Loss
variable {F : Type*} [Field F] [CharZero F]

theorem foldl_loss (size : List F → ℕ) (batches : List (List F)) (a : F) :
    batches.foldl (fun s b => s + batchMean b * (size b : F)) a
      = a + (batches.map fun b => batchMean b * (size b : F)).sum := by
  induction batches generalizing a with
  | nil => simp
  | cons b l ih => rw [List.foldl_cons, ih, List.map_cons, List.sum_cons]; ring

/-- C86 (arrays in memory): `size(0)` is the number of samples of the batch, so for every way of cutting the
samples into nonempty batches the reported loss is the mean over all samples. -/
theorem C86_sample_mean (samples : List F) (hs : samples ≠ []) (batches : List (List F))
    (hcut : batches.flatten = samples) (hne : ∀ b ∈ batches, b ≠ []) :
    valLoss List.length samples.length batches = .ok (samples.sum / (samples.length : F)) := by
  have hlen : samples.length ≠ 0 := by simpa using hs
  have hsum : (batches.map fun b => batchMean b * (b.length : F)).sum = samples.sum := by
    subst hcut
    clear hs hlen
    induction batches with
    | nil => simp
    | cons b l ih =>
      rw [List.map_cons, List.sum_cons, ih (fun c hc => hne c (by simp [hc])), List.flatten_cons, List.sum_append]
      congr 1
      unfold batchMean
      have : (b.length : F) ≠ 0 := by
        have h := hne b (by simp)
        have : b.length ≠ 0 := by simpa using h
        exact_mod_cast this
      field_simp
  simp only [valLoss, foldl_loss, zero_add, hsum, hlen, if_false]

/-- C86 (memmap files): every item of the loader is one chunk (`size(0) = 1`) of `batch` samples and the data
set's length is the number of chunks, so the loss is the mean over the samples served. -/
theorem C86_chunk_mean (batch : ℕ) (hb : 0 < batch) (chunks : List (List F)) (hne : chunks ≠ [])
    (hlen : ∀ c ∈ chunks, c.length = batch) :
    valLoss (fun _ => 1) chunks.length chunks
      = .ok (chunks.flatten.sum / (chunks.flatten.length : F)) := by
  have hbF : (batch : F) ≠ 0 := by exact_mod_cast hb.ne'
  have hc : chunks.length ≠ 0 := by simpa using hne
  have hcF : (chunks.length : F) ≠ 0 := by exact_mod_cast hc
  have hfl : chunks.flatten.length = chunks.length * batch := by
    clear hne hc hcF
    induction chunks with
    | nil => simp
    | cons c l ih =>
      rw [List.flatten_cons, List.length_append, ih (fun x hx => hlen x (by simp [hx])), hlen c (by simp),
        List.length_cons]
      ring
  have hsum : (chunks.map fun b => batchMean b * ((1 : ℕ) : F)).sum = chunks.flatten.sum / (batch : F) := by
    clear hne hc hcF hfl
    induction chunks with
    | nil => simp
    | cons c l ih =>
      rw [List.map_cons, List.sum_cons, ih (fun x hx => hlen x (by simp [hx])), List.flatten_cons, List.sum_append,
        add_div]
      congr 1
      rw [batchMean, hlen c (by simp)]
      simp
  simp only [valLoss, foldl_loss, zero_add, hsum, hc, if_false, hfl]
  congr 1
  push_cast
  field_simp

/-- C86: a split without a full batch (an empty data set) makes the call raise ZeroDivisionError. -/
theorem C86_violation_empty (size : List F → ℕ) (batches : List (List F)) :
    valLoss size 0 batches = .error .zeroDivision := by
  simp [valLoss]

example : ([[1, 2], [3]] : List (List ℚ)).flatten = [1, 2, 3] ∧ ∀ b ∈ ([[1, 2], [3]] : List (List ℚ)), b ≠ [] := by
  simp

end Loss

/-! ### C87: prediction -/

theorem loaderBatches_flatten {X : Type} (size : ℕ) (hs : 0 < size) (fuel : ℕ) : ∀ l : List X, l.length ≤ fuel →
    (loaderBatches size fuel l).flatten = l := by
  induction fuel with
  | zero => intro l hl; have : l = [] := List.eq_nil_of_length_eq_zero (by omega); subst this; rfl
  | succ f ih =>
    intro l hl
    cases l with
    | nil => rfl
    | cons a l =>
      rw [loaderBatches, List.flatten_cons, ih, List.take_append_drop]
      · simp only [List.length_drop, List.length_cons] at *; omega
      · simp

/-- C87: with a model that maps each row on its own (evaluation mode), `predict` returns one output per row in
the order of the rows, for every batch size; no row or a batch size of zero raises ValueError. -/
theorem C87_predict {X Y : Type} (model : List X → List Y) (f : X → Y) (hrow : ∀ l, model l = l.map f)
    (size : ℕ) (rows : List X) :
    predict model size rows
      = if size = 0 ∨ rows = [] then .error .valueError else .ok (rows.map f) := by
  unfold predict
  rcases Nat.eq_zero_or_pos size with hz | hpos
  · simp [hz]
  · rw [if_neg hpos.ne']
    cases rows with
    | nil => simp [loaderBatches]
    | cons a l =>
      have hlen : ((loaderBatches size (a :: l).length (a :: l)).map model).length ≠ 0 := by
        simp [loaderBatches]
      have hcond : ¬ (size = 0 ∨ (a :: l) = []) := by
        simp only [List.cons_ne_nil, or_false]; omega
      rw [if_neg hcond, if_neg hlen]
      congr 1
      have : model = List.map f := funext hrow
      rw [this, ← List.map_flatten, loaderBatches_flatten size hpos _ _ le_rfl]

example : predict (fun l => l.map (· + 1)) 2 [1, 2, 3] = .ok [2, 3, 4] := by
  rw [C87_predict _ (· + 1) (fun _ => rfl)]; rfl

/-! ### C88: the tuning objective -/

theorem objectiveLoop_spec {S M : Type} (epoch : ℕ → S → S × M) (prune : ℕ → M → Bool) (n : ℕ) :
    ∀ (k : ℕ) (s : S) (m0 : Option M), (0 < n ∨ m0 ≠ none) →
      ∃ r, objectiveLoop epoch prune n k s m0 = .ok r := by
  induction n with
  | zero =>
    intro k s m0 h
    cases m0 with
    | none => rcases h with h | h
              · omega
              · exact absurd rfl h
    | some m => exact ⟨_, rfl⟩
  | succ n ih =>
    intro k s m0 _
    rw [objectiveLoop]
    split
    · exact ⟨_, rfl⟩
    · exact ih (k + 1) _ _ (Or.inr (by simp))

/-- The session of a trial after `j` epochs. -/
def trialState {S M : Type} (epoch : ℕ → S → S × M) (s : S) : ℕ → S
  | 0 => s
  | j + 1 => (epoch j (trialState epoch s j)).1

/-- C88: a trial with at least one epoch that is never pruned returns the metric of its last epoch. -/
theorem C88_last_metric_partial {S M : Type} (epoch : ℕ → S → S × M) (prune : ℕ → M → Bool) (n : ℕ) (s : S)
    (hp : ∀ j < n + 1, prune j (epoch j (trialState epoch s j)).2 = false) :
    objective epoch prune (n + 1) s = .ok (some (epoch n (trialState epoch s n)).2) := by
  have : ∀ d k, k + d = n + 1 → ∀ m0, (k ≠ 0 → m0 = some (epoch (k - 1) (trialState epoch s (k - 1))).2) →
      objectiveLoop epoch prune d k (trialState epoch s k) m0 = .ok (some (epoch n (trialState epoch s n)).2) := by
    intro d
    induction d with
    | zero =>
      intro k hk m0 hm
      have : k = n + 1 := by omega
      subst this
      rw [hm (by omega), objectiveLoop]
      rfl
    | succ d ih =>
      intro k hk m0 _
      rw [objectiveLoop]
      simp only [hp k (by omega), Bool.false_eq_true, if_false]
      exact ih (k + 1) (by omega) _ (fun _ => rfl)
  exact this (n + 1) 0 (by omega) none (by intro h; exact absurd rfl h)

/-- C88: a trial with zero epochs raises UnboundLocalError instead of returning a metric. -/
theorem C88_violation_zero_epochs {S M : Type} (epoch : ℕ → S → S × M) (prune : ℕ → M → Bool) (s : S) :
    objective epoch prune 0 s = .error .unboundLocal := rfl

example : ∀ j < 2 + 1, (fun (_ : ℕ) (m : ℕ) => decide (m > 10)) j
    ((fun (k : ℕ) (s : ℕ) => (s + 1, s + k)) j (trialState (fun k s => (s + 1, s + k)) 0 j)).2 = false := by
  intro j hj
  interval_cases j <;> simp [trialState]

/-! ### C89: djinn_regression -/

/-- C89: `djinn_regression` raises TypeError for every data set and every grid, because `train_test_split` has
no parameter `seed`; no model is ever trained. -/
theorem C89_violation_seed_keyword {D P : Type} (split : Except PyErr D) (fit : D → ℕ → ℕ → P)
    (trees depth : List ℕ) : djinnRegression split fit trees depth = .error .typeError := by
  simp [djinnRegression, callKw, splitKeywords, bind, Except.bind]

end Discrete1.Props
