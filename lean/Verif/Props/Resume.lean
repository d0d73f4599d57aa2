import Verif.Props.Train

set_option linter.unusedSectionVars false
set_option linter.unusedSimpArgs false

/-!
# C151: stopping and continuing a training compared with training on
-/

namespace Discrete1.Props

open Discrete1.Ml

section
variable {S W O K : Type} [LinearOrder K]

/-- The session is made of the weights and the optimizer (with scheduler) state and of nothing else that matters
(for instance no random generator whose state the checkpoint does not hold); loading a state dict replaces
exactly that part. -/
structure Restorable (e : Session S W O K) : Prop where
  weights_load : ∀ w s, e.weights (e.loadWeights w s) = w
  opt_load : ∀ o s, e.optState (e.loadOpt o s) = o
  weights_loadOpt : ∀ o s, e.weights (e.loadOpt o s) = e.weights s
  opt_loadWeights : ∀ w s, e.optState (e.loadWeights w s) = e.optState s
  determined : ∀ s t, e.weights s = e.weights t → e.optState s = e.optState t → s = t

/-- Training on from where `m` epochs ended is training `m + j` epochs. -/
theorem stateAfter_add (e : Session S W O K) (s : S) (m j : ℕ) :
    stateAfter e 0 s (m + j) = stateAfter e m (stateAfter e 0 s m) j := by
  induction j with
  | zero => rfl
  | succ j ih =>
    show (e.epoch (0 + (m + j)) (stateAfter e 0 s (m + j))).1 = _
    rw [ih, Nat.zero_add]; rfl

theorem valAt_add (e : Session S W O K) (s : S) (m j : ℕ) :
    valAt e 0 s (m + j) = valAt e m (stateAfter e 0 s m) j := by
  unfold valAt; rw [stateAfter_add, Nat.zero_add]

theorem trainAt_add (e : Session S W O K) (s : S) (m j : ℕ) :
    trainAt e 0 s (m + j) = trainAt e m (stateAfter e 0 s m) j := by
  unfold trainAt; rw [stateAfter_add, Nat.zero_add]

/-- There is at most one first best epoch. -/
theorem firstBest_unique {v : ℕ → Loss K} {m i j : ℕ} (hi : FirstBest v m i) (hj : FirstBest v m j) : i = j := by
  obtain ⟨him, x, hx, hxm, hxs⟩ := hi
  obtain ⟨hjm, y, hy, hym, hys⟩ := hj
  rcases lt_trichotomy i j with h | h | h
  · exact absurd (hys i h x hx) (not_lt.mpr (hxm j hjm y hy))
  · exact h
  · exact absurd (hxs j h y hy) (not_lt.mpr (hym i him x hx))

/-- What `train` leaves behind when epoch `i` is the first best of the `m` epochs, all of them run. -/
theorem train_outcome (e : Session S W O K) (m i : ℕ) (ckpt : Option (Checkpoint W O K)) (s : S)
    (hi : FirstBest (valAt e 0 s) m i) (hfin : ∃ x, valAt e 0 s i = some x ∧ x < ⊤) :
    train e true m (fun _ => false) ckpt s =
      ⟨e.loadWeights (e.weights (stateAfter e 0 s (i + 1))) (stateAfter e 0 s m),
        some ⟨m, e.weights (e.loadWeights (e.weights (stateAfter e 0 s (i + 1))) (stateAfter e 0 s m)),
          e.optState (e.loadWeights (e.weights (stateAfter e 0 s (i + 1))) (stateAfter e 0 s m)),
          valAt e 0 s i⟩, m,
        .ok ⟨(List.range m).map (trainAt e 0 s), (List.range m).map (valAt e 0 s),
          e.testLoss (stateAfter e 0 s m)⟩⟩ := by
  have hm : Runs (fun _ => false) 0 m m := ⟨le_rfl, fun _ _ => rfl, by omega⟩
  obtain ⟨h1, h2, h3, h4, h5⟩ := loopInv e 0 s (some ⊤) m
  rw [← epochLoop_eq e _ m 0 m hm] at h1 h2 h3 h4 h5
  unfold train
  generalize epochLoop e (fun _ => false) m 0 ⟨s, some ⊤, none, [], [], none⟩ = v at *
  rcases h5 with ⟨-, -, hno⟩ | ⟨i', hi', -, hb, hw⟩
  · obtain ⟨x, hx, hlt⟩ := hfin
    have := hno i hi.1
    rw [hx] at this
    simp only [lossLt, decide_eq_false_iff_not] at this
    exact absurd hlt this
  · have := firstBest_unique hi' hi
    subst this
    have hm0 : m ≠ 0 := by have := hi.1; omega
    rw [if_neg hm0] at h4
    simp only [finishTraining, hw, h4, if_true, h1, h2, h3, hb]
    rw [show 0 + m - 1 + 1 = m by omega]

/-- What `continue_training` leaves behind when `i` is the first best of the `k` new epochs, all of them run, and
beats the checkpoint. -/
theorem continue_outcome (e : Session S W O K) (k i : ℕ) (c : Checkpoint W O K) (s s0 : S)
    (hs0 : s0 = e.loadOpt c.opt (e.loadWeights c.weights s))
    (hi : FirstBest (valAt e c.epoch s0) k i) (hlt : lossLt (valAt e c.epoch s0 i) c.best = true) :
    continueTraining e k (fun _ => false) (some c) s =
      ⟨e.loadWeights (e.weights (stateAfter e c.epoch s0 (i + 1))) (stateAfter e c.epoch s0 k),
        some ⟨c.epoch + k,
          e.weights (e.loadWeights (e.weights (stateAfter e c.epoch s0 (i + 1))) (stateAfter e c.epoch s0 k)),
          e.optState (e.loadWeights (e.weights (stateAfter e c.epoch s0 (i + 1))) (stateAfter e c.epoch s0 k)),
          valAt e c.epoch s0 i⟩, k + c.epoch,
        .ok ⟨(List.range k).map (trainAt e c.epoch s0), (List.range k).map (valAt e c.epoch s0),
          e.testLoss (stateAfter e c.epoch s0 k)⟩⟩ := by
  have hm : Runs (fun _ => false) c.epoch k k := ⟨le_rfl, fun _ _ => rfl, by omega⟩
  obtain ⟨h1, h2, h3, h4, h5⟩ := loopInv e c.epoch s0 c.best k
  rw [← epochLoop_eq e _ k c.epoch k hm] at h1 h2 h3 h4 h5
  simp only [continueTraining, Nat.add_sub_cancel, ← hs0]
  generalize epochLoop e (fun _ => false) k c.epoch ⟨s0, c.best, none, [], [], none⟩ = v at *
  rcases h5 with ⟨-, -, hno⟩ | ⟨i', hi', -, hb, hw⟩
  · rw [hno i hi.1] at hlt; cases hlt
  · have := firstBest_unique hi' hi
    subst this
    have hm0 : k ≠ 0 := by have := hi.1; omega
    rw [if_neg hm0] at h4
    simp only [finishTraining, hw, h4, if_true, h1, h2, h3, hb]
    rw [show c.epoch + k - 1 + 1 = c.epoch + k by omega]

/-- C151: train `m` epochs, keep the checkpoint, later continue for `k` epochs, possibly in a new session `s'`.
If the last of the `m` epochs was the best so far and one of the `k` new ones is better still, this is the same
as training `m + k` epochs at once: the session, the checkpoint file and the reported test loss are equal, and
the two histories put together are the history of the long run.  The full property has neither condition. -/
theorem C151_resume_partial (e : Session S W O K) (he : Restorable e) (m k : ℕ) (s s' : S)
    (old old' : Option (Checkpoint W O K)) (hlast : FirstBest (valAt e 0 s) (m + 1) m)
    (hfin : ∃ x, valAt e 0 s m = some x ∧ x < ⊤)
    (himp : ∃ j < k, lossLt (valAt e 0 s (m + 1 + j)) (valAt e 0 s m) = true) :
    ∃ r1 r2 r,
      (train e true (m + 1) (fun _ => false) old s).result = .ok r1 ∧
      (continueTraining e k (fun _ => false) (train e true (m + 1) (fun _ => false) old s).ckpt s').result = .ok r2 ∧
      (train e true (m + 1 + k) (fun _ => false) old' s).result = .ok r ∧
      r.trainLoss = r1.trainLoss ++ r2.trainLoss ∧ r.valLoss = r1.valLoss ++ r2.valLoss ∧
      r.testLoss = r2.testLoss ∧
      (continueTraining e k (fun _ => false) (train e true (m + 1) (fun _ => false) old s).ckpt s').st
        = (train e true (m + 1 + k) (fun _ => false) old' s).st ∧
      (continueTraining e k (fun _ => false) (train e true (m + 1) (fun _ => false) old s).ckpt s').ckpt
        = (train e true (m + 1 + k) (fun _ => false) old' s).ckpt := by
  have ht := train_outcome e (m + 1) m old s hlast hfin
  -- the checkpoint restores the last state
  have hself : e.loadWeights (e.weights (stateAfter e 0 s (m + 1))) (stateAfter e 0 s (m + 1))
      = stateAfter e 0 s (m + 1) :=
    he.determined _ _ (he.weights_load _ _) (he.opt_loadWeights _ _)
  rw [hself] at ht
  set t := stateAfter e 0 s (m + 1) with htdef
  obtain ⟨c, hc⟩ : ∃ c : Checkpoint W O K, c = ⟨m + 1, e.weights t, e.optState t, valAt e 0 s m⟩ := ⟨_, rfl⟩
  have hs0 : t = e.loadOpt c.opt (e.loadWeights c.weights s') := by
    subst hc
    refine he.determined _ _ ?_ ?_
    · rw [he.weights_loadOpt, he.weights_load]
    · rw [he.opt_load]
  have hv : ∀ j, valAt e c.epoch t j = valAt e 0 s (m + 1 + j) := by
    intro j; subst hc; exact (valAt_add e s (m + 1) j).symm
  have hst : ∀ j, stateAfter e c.epoch t j = stateAfter e 0 s (m + 1 + j) := by
    intro j; subst hc; exact (stateAfter_add e s (m + 1) j).symm
  have htr : ∀ j, trainAt e c.epoch t j = trainAt e 0 s (m + 1 + j) := by
    intro j; subst hc; exact (trainAt_add e s (m + 1) j).symm
  have hbest : c.best = valAt e 0 s m := by subst hc; rfl
  -- the best of the new epochs
  obtain ⟨i, hi, hlt⟩ : ∃ i, FirstBest (valAt e c.epoch t) k i ∧ lossLt (valAt e c.epoch t i) c.best = true := by
    obtain ⟨-, -, -, -, h5⟩ := loopInv e c.epoch t c.best k
    rcases h5 with ⟨-, -, hno⟩ | ⟨i, hi, hlt, -, -⟩
    · obtain ⟨j, hj, hl⟩ := himp
      rw [← hv, ← hbest, hno j hj] at hl; cases hl
    · exact ⟨i, hi, hlt⟩
  have hcont := continue_outcome e k i c s' t hs0 hi hlt
  -- it is the best of all
  obtain ⟨x, y, hx, hy, hxy⟩ := (lossLt_iff _ _).mp hlt
  rw [hv] at hx
  rw [hbest] at hy
  have hall : FirstBest (valAt e 0 s) (m + 1 + k) (m + 1 + i) := by
    obtain ⟨hik, x', hx', hmin, hstr⟩ := hi
    rw [hv, hx] at hx'
    cases hx'
    obtain ⟨-, y', hy', hymin, -⟩ := hlast
    rw [hy] at hy'
    cases hy'
    refine ⟨by omega, x, hx, ?_, ?_⟩
    · intro j hj z hz
      rcases Nat.lt_or_ge j (m + 1) with h | h
      · exact (lt_of_lt_of_le hxy (hymin j h z hz)).le
      · obtain ⟨d, rfl⟩ := Nat.exists_eq_add_of_le h
        exact hmin d (by omega) z (by rw [hv]; exact hz)
    · intro j hj z hz
      rcases Nat.lt_or_ge j (m + 1) with h | h
      · exact lt_of_lt_of_le hxy (hymin j h z hz)
      · obtain ⟨d, rfl⟩ := Nat.exists_eq_add_of_le h
        exact hstr d (by omega) z (by rw [hv]; exact hz)
  have hlong := train_outcome e (m + 1 + k) (m + 1 + i) old' s hall
    ⟨x, hx, lt_of_lt_of_le hxy le_top⟩
  have hck : (train e true (m + 1) (fun _ => false) old s).ckpt = some c := by rw [ht, hc]
  rw [hck, hcont, ht, hlong]
  have hce : c.epoch = m + 1 := by rw [hc]
  refine ⟨_, _, _, rfl, rfl, rfl, ?_, ?_, ?_, ?_, ?_⟩
  · rw [funext htr]
    show (List.range (m + 1 + k)).map (trainAt e 0 s) = _
    rw [List.range_add, List.map_append, List.map_map]; rfl
  · rw [funext hv]
    show (List.range (m + 1 + k)).map (valAt e 0 s) = _
    rw [List.range_add, List.map_append, List.map_map]; rfl
  · simp only [hst]
  · simp only [hst]; rfl
  · simp only [hst, hv]; rw [hce]; rfl

/-- C151, where the property fails: the checkpoint pairs the weights of the best epoch with the optimizer of the
last one.  Unless the last epoch is the best, the continuation starts from a state the training was never in:
the weights after epoch `i` with the optimizer and scheduler after all `m`. -/
theorem C151_violation_mixed_state (e : Session S W O K) (he : Restorable e) (m i : ℕ)
    (old : Option (Checkpoint W O K)) (s s' : S) (hi : FirstBest (valAt e 0 s) m i)
    (hfin : ∃ x, valAt e 0 s i = some x ∧ x < ⊤) :
    ∃ c, (train e true m (fun _ => false) old s).ckpt = some c ∧
      e.weights (e.loadOpt c.opt (e.loadWeights c.weights s')) = e.weights (stateAfter e 0 s (i + 1)) ∧
      e.optState (e.loadOpt c.opt (e.loadWeights c.weights s')) = e.optState (stateAfter e 0 s m) := by
  rw [train_outcome e m i old s hi hfin]
  refine ⟨_, rfl, ?_, ?_⟩
  · rw [he.weights_loadOpt, he.weights_load, he.weights_load]
  · rw [he.opt_load, he.opt_loadWeights]

end

/-- A session with momentum: the state is a weight and a momentum counter, both one more per epoch, and the
validation losses are 5, 3, 4, 3, 2, NaN, … -/
def exMomentum : Session (ℕ × ℕ) ℕ ℕ ℚ where
  epoch k s := ((s.1 + 1, s.2 + 1), some ((s.1 : ℚ) : WithTop ℚ),
    ([some 5, some 3, some 4, some 3, some 2] : List (Loss ℚ)).getD k none)
  weights := Prod.fst
  loadWeights w s := (w, s.2)
  optState := Prod.snd
  loadOpt o s := (s.1, o)
  testLoss s := some ((s.1 : ℚ) : WithTop ℚ)

theorem exMomentum_restorable : Restorable exMomentum where
  weights_load _ _ := rfl
  opt_load _ _ := rfl
  weights_loadOpt _ _ := rfl
  opt_loadWeights _ _ := rfl
  determined s t h1 h2 := Prod.ext h1 h2

theorem exMomentum_val (j : ℕ) :
    valAt exMomentum 0 (0, 0) j = ([some 5, some 3, some 4, some 3, some 2] : List (Loss ℚ)).getD j none := by
  simp [valAt, exMomentum]

/-- C151, a case: two epochs (losses 5, 3) and three more (4, 3, 2) are five epochs. -/
example := C151_resume_partial exMomentum exMomentum_restorable 1 3 (0, 0) (7, 9) none none
  ⟨by omega, 3, by rw [exMomentum_val]; rfl, by
    intro j hj y hy; rw [exMomentum_val] at hy
    interval_cases j <;> (simp at hy; subst hy; decide +kernel), by
    intro j hj y hy; rw [exMomentum_val] at hy
    interval_cases j; simp at hy; subst hy; decide +kernel⟩
  ⟨3, by rw [exMomentum_val]; rfl, WithTop.coe_lt_top 3⟩
  ⟨2, by omega, by rw [exMomentum_val, exMomentum_val]; decide +kernel⟩

/-- C151, a violation: three epochs (losses 5, 3, 4) and two more are not five epochs.  The five epochs leave the
weight 5; the three and two leave the weight 4, and both runs report the same best loss. -/
theorem C151_violation_example :
    (train exMomentum true 5 (fun _ => false) none (0, 0)).st = (5, 5) ∧
    (train exMomentum true 3 (fun _ => false) none (0, 0)).st = (2, 3) ∧
    (continueTraining exMomentum 2 (fun _ => false)
      (train exMomentum true 3 (fun _ => false) none (0, 0)).ckpt (0, 0)).st = (4, 5) := by
  decide +kernel

example := C151_violation_mixed_state exMomentum exMomentum_restorable 3 1 none (0, 0) (0, 0)
  ⟨by omega, 3, by rw [exMomentum_val]; rfl, by
    intro j hj y hy; rw [exMomentum_val] at hy
    interval_cases j <;> (simp at hy; subst hy; decide +kernel), by
    intro j hj y hy; rw [exMomentum_val] at hy
    interval_cases j; simp at hy; subst hy; decide +kernel⟩
  ⟨3, by rw [exMomentum_val]; rfl, WithTop.coe_lt_top 3⟩

end Discrete1.Props
