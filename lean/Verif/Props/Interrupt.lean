import Verif.Model.Interrupt
import Mathlib.Tactic.Basic
import Mathlib.Tactic.Cases

/-!
# C64 (`break_loop`), C65 (`finish_iteration`), C81 (tuning and Ctrl+C), C82 (return values)

All statements are for every schedule: any interleaving of interrupts, program steps and failures.
-/

set_option linter.unusedSectionVars false
set_option linter.unusedSimpArgs false

namespace Discrete1.Props

open Discrete1.Interrupt

variable {V : Type*}

/-! ## C64: break_loop -/

/-- Number of interrupts in a schedule. -/
def sigs (l : List Ev) : ℕ := l.count .sig

/-- Invariant of the machine. -/
structure BreakInv (n : ℕ) (s : State V) : Prop where
  bound : s.started ≤ n
  sync : match s.pc with
    | .body => s.started = s.finished + 1
    | .entry | .installed | .check => s.started = s.finished
    | .leaving (.normal r) | .restored (.normal r) => s.started = s.finished ∧ r = none
    | .done (.normal r) => s.started = s.finished ∧ r = none
    | _ => s.finished ≤ s.started ∧ s.started ≤ s.finished + 1
  hand : match s.pc with
    | .entry | .restored _ => s.handler = .original
    | .installed | .check | .body | .leaving _ => s.handler = .ours
    | .done (.normal _) | .done .failed => s.handler = .original
    | .done .keyboardInterrupt => True
  flag : match s.pc with
    | .done _ => True
    | _ => (s.stop = true ↔ 0 < s.count)
  zero : match s.pc with
    | .entry | .installed => s.started = 0
    | _ => True
  normal : match s.pc with
    | .leaving (.normal _) | .restored (.normal _) | .done (.normal _) => s.started = n ∨ 0 < s.count
    | _ => True
  kbd : match s.pc with
    | .leaving .keyboardInterrupt | .restored .keyboardInterrupt | .done .keyboardInterrupt => 2 ≤ s.count
    | _ => True

theorem breakInv_initial (n : ℕ) : BreakInv n (initial V) := by
  constructor <;> simp [initial]

theorem breakInv_ev (n : ℕ) (s : State V) (h : BreakInv n s) (e : Ev) : BreakInv n (breakEv n s e) := by
  obtain ⟨pc, count, stop, handler, started, finished, passed⟩ := s
  obtain ⟨h1, h2, h3, h4, h5, h6, h7⟩ := h
  cases e with
  | sig =>
    simp only [breakEv, breakSig]
    cases handler with
    | original => exact ⟨h1, h2, h3, h4, h5, h6, h7⟩
    | ours =>
      simp only
      split_ifs with hc
      · subst hc
        rcases pc with _ | _ | _ | _ | (_ | _ | _) | (_ | _ | _) | (_ | _ | _) <;>
          constructor <;> simp_all
      · rcases pc with _ | _ | _ | _ | (_ | _ | _) | (_ | _ | _) | (_ | _ | _) <;>
          constructor <;> simp_all <;> omega
  | step =>
    simp only [breakEv, breakStep]
    rcases pc with _ | _ | _ | _ | (_ | _ | _) | (_ | _ | _) | (_ | _ | _) <;> simp only
    · constructor <;> simp_all
    · constructor <;> simp_all
    · split_ifs with ha hb
      · constructor <;> simp_all
      · constructor <;> simp_all
      · constructor <;> simp_all
        omega
    all_goals constructor <;> simp_all
  | fail =>
    simp only [breakEv, breakFail]
    rcases pc with _ | _ | _ | _ | (_ | _ | _) | (_ | _ | _) | (_ | _ | _) <;> simp only <;>
      constructor <;> simp_all

theorem breakInv_run (n : ℕ) (l : List Ev) (s : State V) (h : BreakInv n s) :
    BreakInv n (breakRun n l s) := by
  induction l generalizing s with
  | nil => exact h
  | cons e t ih => exact ih _ (breakInv_ev n s h e)

theorem breakRun_append (n : ℕ) (l m : List Ev) (s : State V) :
    breakRun n (l ++ m) s = breakRun n m (breakRun n l s) := by
  simp only [breakRun, List.foldl_append]

/-- The counter never exceeds the number of interrupts delivered. -/
theorem breakRun_count_le (n : ℕ) (l : List Ev) (s : State V) :
    (breakRun n l s).count ≤ s.count + sigs l := by
  induction l generalizing s with
  | nil => simp [breakRun, sigs]
  | cons e t ih =>
    have h := ih (breakEv n s e)
    have e1 : breakRun n (e :: t) s = breakRun n t (breakEv n s e) := rfl
    rw [e1]
    have h2 : (breakEv n s e).count ≤ s.count + (if e = .sig then 1 else 0) := by
      obtain ⟨pc, count, stop, handler, started, finished, passed⟩ := s
      cases e with
      | sig =>
        simp only [breakEv, breakSig]
        cases handler with
        | original => simp
        | ours =>
          simp only
          split_ifs with hc
          · simp
          · rcases pc with _ | _ | _ | _ | _ | _ | _ <;> simp
      | step =>
        simp only [breakEv, breakStep]
        rcases pc with _ | _ | _ | _ | _ | _ | _ <;> simp
        split_ifs <;> simp
      | fail =>
        simp only [breakEv, breakFail]
        rcases pc with _ | _ | _ | _ | _ | _ | _ <;> simp
    have h3 : sigs (e :: t) = sigs t + (if e = .sig then 1 else 0) := by
      cases e <;> simp [sigs]
    omega

/-- C64 (no interrupt): a call that ends normally without an interrupt has completed all `n` iterations and
the previous handler is back. -/
theorem C64_no_interrupt (n : ℕ) (l : List Ev) (hs : sigs l = 0) (r : Option V)
    (hd : (breakRun n l (initial V)).pc = .done (.normal r)) :
    (breakRun n l (initial V)).finished = n ∧ (breakRun n l (initial V)).started = n ∧
      (breakRun n l (initial V)).handler = .original := by
  have h := breakInv_run n l (initial V) (breakInv_initial n)
  have hc := breakRun_count_le n l (initial V)
  rw [hs] at hc
  have hc0 : (breakRun n l (initial V)).count = 0 := by
    have : (initial V).count = 0 := rfl
    omega
  have h2 := h.sync
  have h3 := h.normal
  have h4 := h.hand
  rw [hd] at h2 h3 h4
  simp only at h2 h3 h4
  refine ⟨?_, ?_, h4⟩ <;> omega

/-- Once the stop flag is up during a call, no schedule starts another iteration. -/
theorem no_more_starts (n : ℕ) (l : List Ev) (s : State V)
    (hpc : s.pc ≠ .entry) (hflag : (∀ o, s.pc ≠ .done o) → s.stop = true) :
    (breakRun n l s).started = s.started := by
  induction l generalizing s with
  | nil => rfl
  | cons e t ih =>
    have e1 : breakRun n (e :: t) s = breakRun n t (breakEv n s e) := rfl
    rw [e1]
    obtain ⟨pc, count, stop, handler, started, finished, passed⟩ := s
    have key : (breakEv n ⟨pc, count, stop, handler, started, finished, passed⟩ e).started = started ∧
        (breakEv n ⟨pc, count, stop, handler, started, finished, passed⟩ e).pc ≠ .entry ∧
        ((∀ o, (breakEv n ⟨pc, count, stop, handler, started, finished, passed⟩ e).pc ≠ .done o) →
          (breakEv n ⟨pc, count, stop, handler, started, finished, passed⟩ e).stop = true) := by
      cases e with
      | sig =>
        simp only [breakEv, breakSig]
        cases handler with
        | original => exact ⟨rfl, hpc, hflag⟩
        | ours =>
          simp only
          split_ifs with hc
          · exact ⟨rfl, hpc, fun _ => rfl⟩
          · rcases pc with _ | _ | _ | _ | _ | _ | _ <;> simp_all
      | step =>
        simp only [breakEv, breakStep]
        rcases pc with _ | _ | _ | _ | _ | _ | _ <;> simp_all
        split_ifs <;> simp_all
      | fail =>
        simp only [breakEv, breakFail]
        rcases pc with _ | _ | _ | _ | _ | _ | _ <;> simp_all
    rw [ih _ key.2.1 key.2.2, key.1]

/-- C64 (one interrupt): if an interrupt arrives while the call is running (whatever happened before), then
under every later schedule no further iteration starts; if the call ends normally every started iteration,
in particular the one that was running, has been completed; and if it was the only interrupt the call does
not end with KeyboardInterrupt and the previous handler is back. -/
theorem C64_one_interrupt (n : ℕ) (pre post : List Ev)
    (hrun : (breakRun n pre (initial V)).handler = .ours) (o : Outcome V)
    (hd : (breakRun n (pre ++ .sig :: post) (initial V)).pc = .done o) :
    (breakRun n (pre ++ .sig :: post) (initial V)).started = (breakRun n pre (initial V)).started ∧
    (∀ r, o = .normal r → (breakRun n (pre ++ .sig :: post) (initial V)).finished
      = (breakRun n pre (initial V)).started) ∧
    (sigs pre = 0 → sigs post = 0 → o ≠ .keyboardInterrupt ∧
      (breakRun n (pre ++ .sig :: post) (initial V)).handler = .original) := by
  have hpre := breakInv_run n pre (initial V) (breakInv_initial n)
  have hall := breakInv_run n (pre ++ .sig :: post) (initial V) (breakInv_initial n)
  have hsplit : breakRun n (pre ++ .sig :: post) (initial V)
      = breakRun n post (breakSig (breakRun n pre (initial V))) := by
    rw [breakRun_append]; rfl
  have hst : (breakRun n (pre ++ .sig :: post) (initial V)).started
      = (breakRun n pre (initial V)).started := by
    rw [hsplit]
    have hinv := breakInv_ev n _ hpre .sig
    have hpc : (breakSig (breakRun n pre (initial V))).pc ≠ .entry ∧
        (breakSig (breakRun n pre (initial V))).started = (breakRun n pre (initial V)).started ∧
        0 < (breakSig (breakRun n pre (initial V))).count := by
      revert hrun hpre
      generalize breakRun n pre (initial V) = s
      intro hrun hpre
      obtain ⟨pc, count, stop, handler, started, finished, passed⟩ := s
      simp only at hrun
      subst hrun
      have := hpre.hand
      simp only [breakSig]
      split_ifs with hc
      · rcases pc with _ | _ | _ | _ | _ | _ | _ <;> simp_all
      · rcases pc with _ | _ | _ | _ | _ | _ | _ <;> simp_all
    rw [no_more_starts n post _ hpc.1 ?_, hpc.2.1]
    intro hnd
    have hf : BreakInv n (breakSig (breakRun n pre (initial V))) := hinv
    have hflag := hf.flag
    revert hflag hnd hpc
    generalize breakSig (breakRun n pre (initial V)) = u
    intro hpc hnd hflag
    obtain ⟨pc, count, stop, handler, started, finished, passed⟩ := u
    rcases pc with _ | _ | _ | _ | _ | _ | o' <;> simp_all
  refine ⟨hst, fun r hr => ?_, fun h1 h2 => ?_⟩
  · have := hall.sync
    rw [hd, hr] at this
    rw [← hst]
    exact this.1.symm
  · have hc := breakRun_count_le n (pre ++ .sig :: post) (initial V)
    have h3 : sigs (pre ++ .sig :: post) = 1 := by
      simp only [sigs, List.count_append, List.count_cons_self] at h1 h2 ⊢
      omega
    have h4 := hall.kbd
    have h5 := hall.hand
    rw [hd] at h4 h5
    have h0 : (initial V).count = 0 := rfl
    cases o with
    | normal r => exact ⟨by simp, h5⟩
    | failed => exact ⟨by simp, h5⟩
    | keyboardInterrupt => simp only at h4; omega

/-- C64 (promptness): after an interrupt during an iteration the program needs exactly four more steps: the
rest of the iteration, the check that breaks the loop, and the two steps of the clean-up. -/
theorem C64_ends_after_current_iteration (n : ℕ) (pre : List Ev)
    (hs : sigs pre = 0) (hb : (breakRun n pre (initial V)).pc = .body) :
    (breakRun n (pre ++ [.sig, .step, .step, .step, .step]) (initial V)).pc = .done (.normal none) ∧
    (breakRun n (pre ++ [.sig, .step, .step, .step, .step]) (initial V)).finished
      = (breakRun n pre (initial V)).started := by
  have hpre := breakInv_run n pre (initial V) (breakInv_initial n)
  have hc := breakRun_count_le n pre (initial V)
  rw [breakRun_append]
  revert hb hpre hc
  generalize breakRun n pre (initial V) = s
  intro hb hpre hc
  obtain ⟨pc, count, stop, handler, started, finished, passed⟩ := s
  simp only at hb hc
  subst hb
  have h0 : count = 0 := by
    have : (initial V).count = 0 := rfl
    omega
  subst h0
  have h1 := hpre.hand
  have h2 := hpre.sync
  simp only at h1 h2
  subst h1
  simp only [breakRun, List.foldl_cons, List.foldl_nil, breakEv, breakSig, breakStep, if_true]
  split_ifs <;> simp [h2]

/-- C64 (second interrupt): a second interrupt while the call is running aborts it: no later schedule starts
or completes an iteration, and the only way the call can end is KeyboardInterrupt. -/
theorem C64_second_interrupt (n : ℕ) (pre post : List Ev)
    (hrun : (breakRun n pre (initial V)).handler = .ours) (hfirst : 0 < (breakRun n pre (initial V)).count)
    (hnd : ∀ o, (breakRun n pre (initial V)).pc ≠ .done o) :
    (breakRun n (pre ++ .sig :: post) (initial V)).started = (breakRun n pre (initial V)).started ∧
    (breakRun n (pre ++ .sig :: post) (initial V)).finished = (breakRun n pre (initial V)).finished ∧
    ∀ o, (breakRun n (pre ++ .sig :: post) (initial V)).pc = .done o → o = .keyboardInterrupt := by
  have hpre := breakInv_run n pre (initial V) (breakInv_initial n)
  have hsplit : breakRun n (pre ++ .sig :: post) (initial V)
      = breakRun n post (breakSig (breakRun n pre (initial V))) := by
    rw [breakRun_append]; rfl
  rw [hsplit]
  have hgen : ∀ (l : List Ev) (u : State V), (u.pc = .leaving .keyboardInterrupt ∨
      u.pc = .restored .keyboardInterrupt ∨ u.pc = .done .keyboardInterrupt) →
      (breakRun n l u).started = u.started ∧ (breakRun n l u).finished = u.finished ∧
      ((breakRun n l u).pc = .leaving .keyboardInterrupt ∨
        (breakRun n l u).pc = .restored .keyboardInterrupt ∨ (breakRun n l u).pc = .done .keyboardInterrupt) := by
    intro l
    induction l with
    | nil => intro u hu; exact ⟨rfl, rfl, hu⟩
    | cons e t ih =>
      intro u hu
      have e1 : breakRun n (e :: t) u = breakRun n t (breakEv n u e) := rfl
      rw [e1]
      have key : (breakEv n u e).started = u.started ∧ (breakEv n u e).finished = u.finished ∧
          ((breakEv n u e).pc = .leaving .keyboardInterrupt ∨ (breakEv n u e).pc = .restored .keyboardInterrupt ∨
            (breakEv n u e).pc = .done .keyboardInterrupt) := by
        obtain ⟨pc, count, stop, handler, started, finished, passed⟩ := u
        simp only at hu
        rcases hu with rfl | rfl | rfl <;> cases e <;> cases handler <;>
          simp only [breakEv, breakSig, breakStep, breakFail] <;> (try split_ifs) <;> simp
      obtain ⟨h1, h2, h3⟩ := ih _ key.2.2
      exact ⟨h1.trans key.1, h2.trans key.2.1, h3⟩
  have hsig : (breakSig (breakRun n pre (initial V))).started = (breakRun n pre (initial V)).started ∧
      (breakSig (breakRun n pre (initial V))).finished = (breakRun n pre (initial V)).finished ∧
      ((breakSig (breakRun n pre (initial V))).pc = .leaving .keyboardInterrupt ∨
        (breakSig (breakRun n pre (initial V))).pc = .restored .keyboardInterrupt ∨
        (breakSig (breakRun n pre (initial V))).pc = .done .keyboardInterrupt) := by
    revert hrun hpre hfirst hnd
    generalize breakRun n pre (initial V) = s
    intro hrun hfirst hnd hpre
    obtain ⟨pc, count, stop, handler, started, finished, passed⟩ := s
    simp only at hrun hfirst hnd
    subst hrun
    have hh := hpre.hand
    simp only [breakSig, if_neg (by omega : ¬ count = 0)]
    rcases pc with _ | _ | _ | _ | _ | _ | o' <;> simp_all
  obtain ⟨h1, h2, h3⟩ := hgen post _ hsig.2.2
  refine ⟨h1.trans hsig.1, h2.trans hsig.2.1, fun o ho => ?_⟩
  rw [ho] at h3
  rcases h3 with h | h | h
  · cases h
  · cases h
  · injection h

/-- C64 (handler): the previous handler is back at the end of every call in which no second interrupt falls
into one of the two windows in which the handler is installed but the call is outside the loop: between the
installation and `try`, and in `finally` before the restoration. -/
theorem C64_handler_restored_partial (n : ℕ) (l : List Ev)
    (hwin : ∀ pre post, l = pre ++ .sig :: post → 0 < (breakRun n pre (initial V)).count →
      (breakRun n pre (initial V)).pc ≠ .installed ∧ ∀ o, (breakRun n pre (initial V)).pc ≠ .leaving o)
    (o : Outcome V) (hd : (breakRun n l (initial V)).pc = .done o) :
    (breakRun n l (initial V)).handler = .original := by
  have key : ∀ (l pre : List Ev), (∀ o, (breakRun n pre (initial V)).pc = .done o →
      (breakRun n pre (initial V)).handler = .original) →
      (∀ q r, pre ++ l = q ++ .sig :: r → 0 < (breakRun n q (initial V)).count →
        (breakRun n q (initial V)).pc ≠ .installed ∧ ∀ o, (breakRun n q (initial V)).pc ≠ .leaving o) →
      ∀ o, (breakRun n (pre ++ l) (initial V)).pc = .done o →
        (breakRun n (pre ++ l) (initial V)).handler = .original := by
    intro l
    induction l with
    | nil => intro pre h1 _ o ho; rw [List.append_nil] at ho ⊢; exact h1 o ho
    | cons e t ih =>
      intro pre h1 h2 o ho
      have e1 : pre ++ e :: t = (pre ++ [e]) ++ t := by simp
      rw [e1] at ho ⊢
      refine ih (pre ++ [e]) ?_ ?_ o ho
      · intro o' ho'
        have hstep : breakRun n (pre ++ [e]) (initial V) = breakEv n (breakRun n pre (initial V)) e := by
          rw [breakRun_append]; rfl
        rw [hstep] at ho' ⊢
        have hinv := breakInv_run n pre (initial V) (breakInv_initial n)
        have hw : e = .sig → 0 < (breakRun n pre (initial V)).count →
            (breakRun n pre (initial V)).pc ≠ .installed ∧ ∀ o, (breakRun n pre (initial V)).pc ≠ .leaving o := by
          rintro rfl
          exact h2 pre t rfl
        revert ho' h1 hinv hw
        generalize breakRun n pre (initial V) = s
        intro h1 ho' hinv hw
        obtain ⟨pc, count, stop, handler, started, finished, passed⟩ := s
        have hh := hinv.hand
        clear ih h2 hwin hd hinv hstep ho e1
        cases handler with
        | original =>
          cases e with
          | sig => rfl
          | step =>
            simp only [breakEv, breakStep] at ho' ⊢
            rcases pc with _ | _ | _ | _ | _ | _ | _ <;> simp only at hh ho' ⊢ <;> cases hh <;> cases ho'
          | fail =>
            simp only [breakEv, breakFail] at ho' ⊢
            rcases pc with _ | _ | _ | _ | _ | _ | _ <;> rfl
        | ours =>
          cases e with
          | sig =>
            simp only [breakEv, breakSig] at ho' ⊢
            by_cases hc : count = 0
            · rw [if_pos hc] at ho' ⊢
              exact h1 o' ho'
            · rw [if_neg hc] at ho' ⊢
              have hw' := hw rfl (by simp only; omega)
              rcases pc with _ | _ | _ | _ | _ | _ | _ <;> simp only at hh ho' ⊢
              · cases hh
              · exact absurd rfl hw'.1
              · cases ho'
              · cases ho'
              · exact absurd rfl (hw'.2 _)
              · cases ho'
              · exact h1 _ rfl
          | step =>
            simp only [breakEv, breakStep] at ho' ⊢
            rcases pc with _ | _ | _ | _ | _ | _ | _ <;> simp only at hh ho' ⊢
            · cases ho'
            · cases ho'
            · split_ifs at ho' <;> cases ho'
            · cases ho'
            · cases hh
            · exact h1 _ rfl
          | fail =>
            simp only [breakEv, breakFail] at ho' ⊢
            rcases pc with _ | _ | _ | _ | _ | _ | _ <;> simp only at hh ho' ⊢
            all_goals first | (cases ho'; done) | exact h1 _ rfl
      · intro q r hq
        exact h2 q r (by rw [e1]; exact hq)
  refine key l [] (fun o ho => ?_) (fun q r hq => hwin q r (by simpa using hq)) o hd
  cases ho

/-- C64 (violation): in both windows a second interrupt ends the call with our handler left installed, so
that from then on every Ctrl+C of the process raises KeyboardInterrupt through the dead wrapper and the
user's handler is gone. -/
theorem C64_violation_handler_lost (n : ℕ) (pre : List Ev)
    (hfirst : 0 < (breakRun n pre (initial V)).count)
    (hpc : (breakRun n pre (initial V)).pc = .installed ∨ ∃ o, (breakRun n pre (initial V)).pc = .leaving o) :
    (breakRun n (pre ++ [.sig]) (initial V)).pc = .done .keyboardInterrupt ∧
      (breakRun n (pre ++ [.sig]) (initial V)).handler = .ours := by
  have hinv := breakInv_run n pre (initial V) (breakInv_initial n)
  rw [breakRun_append]
  revert hfirst hpc hinv
  generalize breakRun n pre (initial V) = s
  intro hfirst hpc hinv
  obtain ⟨pc, count, stop, handler, started, finished, passed⟩ := s
  have hh := hinv.hand
  simp only at hfirst hpc hh
  have hc : ¬ count = 0 := by omega
  rcases hpc with rfl | ⟨o, rfl⟩ <;> simp only at hh <;> subst hh <;>
    simp [breakRun, breakEv, breakSig, hc]

/-- Ten iterations; an interrupt during the third; the call ends normally with three completed. -/
example : (breakRun 10 ([.step, .step, .step, .step, .step, .step, .step] ++ [.sig, .step, .step, .step, .step])
      (initial ℕ)).finished = 3 :=
  (C64_ends_after_current_iteration (V := ℕ) 10 [.step, .step, .step, .step, .step, .step, .step] rfl rfl).2

/-- The window in `finally`: first interrupt during the only iteration, second one at the clean-up. -/
example : (breakRun 1 ([.step, .step, .step, .sig, .step, .step] ++ [.sig]) (initial ℕ)).handler = .ours :=
  (C64_violation_handler_lost (V := ℕ) 1 [.step, .step, .step, .sig, .step, .step] (by decide)
    (Or.inr ⟨_, rfl⟩)).2

/-- A schedule that meets the hypotheses of `C64_second_interrupt`: second interrupt inside an iteration. -/
example : (breakRun 5 [.step, .step, .step, .sig] (initial ℕ)).handler = .ours ∧
    0 < (breakRun 5 [.step, .step, .step, .sig] (initial ℕ)).count := by decide

/-! ## C65: finish_iteration -/

/-- Invariant of the `finish_iteration` machine. -/
structure FinishInv (n : ℕ) (v : V) (s : State V) : Prop where
  bound : s.started ≤ n
  sync : match s.pc with
    | .body => s.started = s.finished + 1
    | .entry | .installed | .check => s.started = s.finished
    | .leaving (.normal r) | .restored (.normal r) | .done (.normal r) => s.finished = n ∧ r = some v
    | .leaving .keyboardInterrupt | .restored .keyboardInterrupt => False
    | .done .keyboardInterrupt => s.finished = n
    | _ => True
  hand : match s.pc with
    | .entry | .restored _ | .done _ => s.handler = .original
    | .installed | .check | .body | .leaving _ => s.handler = .ours
  flag : s.stop = true ↔ 0 < s.count
  out : match s.pc with
    | .done .keyboardInterrupt => 0 < s.count
    | .done (.normal _) => s.count = 0
    | _ => True

theorem finishInv_initial (n : ℕ) (v : V) : FinishInv n v (initial V) := by
  constructor <;> simp [initial]

theorem finishInv_ev (n : ℕ) (v : V) (s : State V) (h : FinishInv n v s) (e : Ev) :
    FinishInv n v (finishEv n v s e) := by
  obtain ⟨pc, count, stop, handler, started, finished, passed⟩ := s
  obtain ⟨h1, h2, h3, h4, h5⟩ := h
  cases e with
  | sig =>
    simp only [finishEv, finishSig]
    cases handler with
    | original => exact ⟨h1, h2, h3, h4, h5⟩
    | ours =>
      rcases pc with _ | _ | _ | _ | (_ | _ | _) | (_ | _ | _) | (_ | _ | _) <;>
        constructor <;> simp_all <;> omega
  | step =>
    simp only [finishEv, finishStep]
    rcases pc with _ | _ | _ | _ | (_ | _ | _) | (_ | _ | _) | (_ | _ | _) <;> simp only
    · constructor <;> simp_all
    · constructor <;> simp_all
    · split_ifs with ha
      · constructor <;> simp_all
      · constructor <;> simp_all
        omega
    all_goals try (constructor <;> simp_all; done)
    cases stop <;> constructor <;> simp_all
  | fail =>
    simp only [finishEv, breakFail]
    rcases pc with _ | _ | _ | _ | (_ | _ | _) | (_ | _ | _) | (_ | _ | _) <;> simp only <;>
      constructor <;> simp_all

theorem finishInv_run (n : ℕ) (v : V) (l : List Ev) (s : State V) (h : FinishInv n v s) :
    FinishInv n v (finishRun n v l s) := by
  induction l generalizing s with
  | nil => exact h
  | cons e t ih => exact ih _ (finishInv_ev n v s h e)

theorem finishRun_append (n : ℕ) (v : V) (l m : List Ev) (s : State V) :
    finishRun n v (l ++ m) s = finishRun n v m (finishRun n v l s) := by
  simp only [finishRun, List.foldl_append]

theorem finishEv_count (n : ℕ) (v : V) (s : State V) (e : Ev) : s.count ≤ (finishEv n v s e).count := by
  obtain ⟨pc, count, stop, handler, started, finished, passed⟩ := s
  cases e with
  | sig => cases handler <;> simp [finishEv, finishSig]
  | step =>
    simp only [finishEv, finishStep]
    rcases pc with _ | _ | _ | _ | (_ | _ | _) | (_ | _ | _) | (_ | _ | _) <;> simp only <;> try exact le_refl _
    split_ifs <;> exact le_refl _
  | fail =>
    simp only [finishEv, breakFail]
    rcases pc with _ | _ | _ | _ | (_ | _ | _) | (_ | _ | _) | (_ | _ | _) <;> exact le_refl _

theorem finishRun_count (n : ℕ) (v : V) (l : List Ev) (s : State V) :
    s.count ≤ (finishRun n v l s).count := by
  induction l generalizing s with
  | nil => exact le_refl _
  | cons e t ih => exact (finishEv_count n v s e).trans (ih _)

/-- C65: whatever the schedule, when the call is over the previous handler is back; a normal return hands
over the function's value after all its work and only if no interrupt was seen; KeyboardInterrupt comes only
after all the work and only if there was an interrupt. -/
theorem C65_outcomes (n : ℕ) (v : V) (l : List Ev) (o : Outcome V)
    (hd : (finishRun n v l (initial V)).pc = .done o) :
    (finishRun n v l (initial V)).handler = .original ∧
    (∀ r, o = .normal r → r = some v ∧ (finishRun n v l (initial V)).finished = n ∧
      (finishRun n v l (initial V)).count = 0) ∧
    (o = .keyboardInterrupt → (finishRun n v l (initial V)).finished = n ∧
      0 < (finishRun n v l (initial V)).count) := by
  have h := finishInv_run n v l (initial V) (finishInv_initial n v)
  have h2 := h.sync
  have h3 := h.hand
  have h5 := h.out
  rw [hd] at h2 h3 h5
  refine ⟨h3, fun r hr => ?_, fun hk => ?_⟩
  · subst hr; exact ⟨h2.2, h2.1, h5⟩
  · subst hk; exact ⟨h2, h5⟩

/-- C65 (one interrupt): an interrupt during the call lets the function finish its work; the call then ends
with KeyboardInterrupt, unless the function itself raised. -/
theorem C65_one_interrupt (n : ℕ) (v : V) (pre post : List Ev)
    (hrun : (finishRun n v pre (initial V)).handler = .ours) (o : Outcome V)
    (hd : (finishRun n v (pre ++ .sig :: post) (initial V)).pc = .done o) :
    (o = .keyboardInterrupt ∧ (finishRun n v (pre ++ .sig :: post) (initial V)).finished = n) ∨ o = .failed := by
  have hout := C65_outcomes n v _ o hd
  have hc : 0 < (finishRun n v (pre ++ .sig :: post) (initial V)).count := by
    rw [finishRun_append]
    refine lt_of_lt_of_le ?_ (finishRun_count n v post _)
    simp only [finishEv, finishSig, hrun]
    exact Nat.succ_pos _
  cases o with
  | normal r => have := (hout.2.1 r rfl).2.2; omega
  | keyboardInterrupt => exact Or.inl ⟨rfl, (hout.2.2 rfl).1⟩
  | failed => exact Or.inr rfl

/-- C65 (violation): a second Ctrl+C does not abort the call: any number of interrupts, at any time, leaves
the program exactly where it is, and the call still cannot end before all the work is done unless the
function itself raises. -/
theorem C65_violation_second_interrupt (n : ℕ) (v : V) (pre post : List Ev) (k : ℕ) :
    (finishRun n v (pre ++ List.replicate k .sig) (initial V)).pc = (finishRun n v pre (initial V)).pc ∧
    (finishRun n v (pre ++ List.replicate k .sig) (initial V)).finished
      = (finishRun n v pre (initial V)).finished ∧
    ∀ o, (finishRun n v (pre ++ List.replicate k .sig ++ post) (initial V)).pc = .done o → o ≠ .failed →
      (finishRun n v (pre ++ List.replicate k .sig ++ post) (initial V)).finished = n := by
  have hsig : ∀ s : State V, (finishSig s).pc = s.pc ∧ (finishSig s).finished = s.finished := by
    intro s
    obtain ⟨pc, count, stop, handler, started, finished, passed⟩ := s
    cases handler <;> exact ⟨rfl, rfl⟩
  have hrep : ∀ (k : ℕ) (s : State V), (finishRun n v (List.replicate k .sig) s).pc = s.pc ∧
      (finishRun n v (List.replicate k .sig) s).finished = s.finished := by
    intro k
    induction k with
    | zero => intro s; exact ⟨rfl, rfl⟩
    | succ k ih =>
      intro s
      rw [List.replicate_succ]
      have := ih (finishSig s)
      exact ⟨this.1.trans (hsig s).1, this.2.trans (hsig s).2⟩
  refine ⟨?_, ?_, fun o ho hf => ?_⟩
  · rw [finishRun_append]; exact (hrep k _).1
  · rw [finishRun_append]; exact (hrep k _).2
  · have := C65_outcomes n v _ o ho
    cases o with
    | normal r => exact (this.2.1 r rfl).2.1
    | keyboardInterrupt => exact (this.2.2 rfl).1
    | failed => exact absurd rfl hf

/-- Three interrupts during the first of two units of work: both units are done, then KeyboardInterrupt. -/
example : (finishRun 2 7 [.step, .step, .step, .sig, .sig, .sig, .step, .step, .step, .step, .step, .step]
      (initial ℕ)).pc = .done .keyboardInterrupt ∧
    (finishRun 2 7 [.step, .step, .step, .sig, .sig, .sig, .step, .step, .step, .step, .step, .step]
      (initial ℕ)).finished = 2 := ⟨rfl, rfl⟩

/-! ## C81: tuning and Ctrl+C -/

/-- C81 (violation): whatever handler was installed before `run`, after it has returned Ctrl+C is still
handled by the tuner's handler, which raises RuntimeError because no study is running; a Ctrl+C during the
search stops the study as intended. -/
theorem C81_violation_handler_kept (s : TuneState) :
    tuneReaction (tuneRun.foldl tuneStep s) = .runtimeError ∧
    tuneReaction ([TuneStep.finishTrial, .optimizeBegins].foldl tuneStep s) = .stopsStudy := by
  exact ⟨rfl, rfl⟩

/-- C81 (part that holds): at every moment of `run`, whatever was installed before, a Ctrl+C that arrives while the
search is running stops the study; and there is such a moment. -/
theorem C81_search_stops_partial (s : TuneState) (hs : s.running = false) :
    (∀ k, ((tuneRun.take k).foldl tuneStep s).running = true →
      tuneReaction ((tuneRun.take k).foldl tuneStep s) = .stopsStudy) ∧
    ∃ k ≤ tuneRun.length, ((tuneRun.take k).foldl tuneStep s).running = true := by
  refine ⟨fun k hk => ?_, 2, by decide, rfl⟩
  rcases k with _ | _ | _ | _ | k
  · simp [hs] at hk
  · simp [tuneRun, tuneStep, hs] at hk
  · rfl
  · simp [tuneRun, tuneStep] at hk
  · simp [tuneRun, tuneStep] at hk

example := C81_search_stops_partial ⟨.original, false⟩ rfl

/-- Started with the original handler, which would have handled the interrupt. -/
example : tuneReaction ⟨.original, false⟩ = .original ∧
    tuneReaction (tuneRun.foldl tuneStep ⟨.original, false⟩) ≠ .original := by decide

/-! ## C82: return values of decorated functions -/

/-- C82: `finish_iteration` hands the function's value through. -/
theorem C82_finish_iteration_partial (n : ℕ) (v : V) (l : List Ev) (r : Option V)
    (hd : (finishRun n v l (initial V)).pc = .done (.normal r)) : r = some v :=
  ((C65_outcomes n v l _ hd).2.1 r rfl).1

/-- C82 (violation): under `break_loop` every normal end returns None, under every schedule. -/
theorem C82_violation_break_loop (n : ℕ) (l : List Ev) (r : Option V)
    (hd : (breakRun n l (initial V)).pc = .done (.normal r)) : r = none := by
  have h := (breakInv_run n l (initial V) (breakInv_initial n)).sync
  rw [hd] at h
  exact h.2

example : (breakRun 1 [.step, .step, .step, .step, .step, .step, .step] (initial ℕ)).pc = .done (.normal none) := rfl

example : (finishRun 1 7 [.step, .step, .step, .step, .step, .step, .step] (initial ℕ)).pc
    = .done (.normal (some 7)) := rfl

end Discrete1.Props
