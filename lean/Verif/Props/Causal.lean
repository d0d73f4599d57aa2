import Verif.Props.Timed
import Verif.Props.Stability
import Verif.Model.HybridCalls
import Verif.Model.Auto
import Verif.Model.Ambe

/-!
# C189: the past does not depend on the future

The first `m` entries returned by a time-dependent run of `n ≥ m` steps are what a run of `m` steps returns, and depend
only on the data of the first `m` steps; a failure within the first `m` steps is the failure of the longer run.
-/

set_option linter.unusedSectionVars false
set_option linter.unusedSimpArgs false

namespace Discrete1.Props

open Finset Discrete1.Spec Discrete1.Slab Discrete1.Tools Discrete1.MultiGroup Discrete1.Drivers Discrete1.Auto
  Discrete1.HybridCalls

/-- A long run extends a short one: when the long run ends well so does the short one, with the same first `m` entries;
when the short one raises an error, the long one raises the same. -/
structure Extends {ε β : Type} (m : ℕ) (short long : Except ε (ℕ → β)) : Prop where
  entries : ∀ r, long = .ok r → ∃ q, short = .ok q ∧ ∀ j < m, q j = r j
  failure : ∀ e, short = .error e → long = .error e

section General

variable {K : Type} [Field K] [LinearOrder K] [IsStrictOrderedRing K]

/-- The loops behind the runs. -/
theorem loopE_extends {σ ε β : Type} (out : σ → ℕ → β) {m n : ℕ} (hmn : m ≤ n) (f f' : ℕ → σ → Except ε σ) (s : σ)
    (hsame : ∀ i < m, ∀ s, f i s = f' i s)
    (hown : ∀ i s s', f' i s = .ok s' → ∀ j, j ≠ i → out s' j = out s j) :
    Extends m ((loopE m f s).map out) ((loopE n f' s).map out) := by
  have heq : ∀ k ≤ m, loopE k f s = loopE k f' s := by
    intro k
    induction k with
    | zero => intro _; rfl
    | succ k ih =>
      intro hk
      rw [loopE_succ, loopE_succ, ih (by omega)]
      cases loopE k f' s with
      | error e => rfl
      | ok r => exact hsame k (by omega) r
  rw [heq m le_rfl]
  clear heq hsame
  obtain ⟨d, rfl⟩ := Nat.exists_eq_add_of_le hmn
  clear hmn
  induction d with
  | zero => exact ⟨fun r h => ⟨r, h, fun _ _ => rfl⟩, fun _ h => h⟩
  | succ d ih =>
    rw [← Nat.add_assoc, loopE_succ]
    constructor
    · intro r hr
      cases h : loopE (m + d) f' s with
      | error e => rw [h] at hr; exact absurd hr (by simp [Except.map])
      | ok t =>
        rw [h] at hr
        obtain ⟨q, hq, hqe⟩ := ih.entries (out t) (by rw [h]; rfl)
        refine ⟨q, hq, fun j hj => ?_⟩
        cases h2 : f' (m + d) t with
        | error e => simp only [h2] at hr; exact absurd hr (by simp [Except.map])
        | ok u =>
          simp only [h2, Except.map, Except.ok.injEq] at hr
          rw [hqe j hj, ← hr, hown _ _ _ h2 j (by omega)]
    · intro e he
      have := ih.failure e he
      cases h : loopE (m + d) f' s with
      | error e' => rw [h] at this; simpa [Except.map] using this
      | ok t => rw [h] at this; exact absurd this (by simp [Except.map])

/-- C189: `timed1d.backward_euler`, for any cross sections, geometry, isotropic or not, well posed or not. -/
theorem C189_backward_euler (p : Problem K) (xsTotal : ℕ → ℕ → K) (scatter : Scatter K) (fission : Fission K)
    (velocity : ℕ → K) (ext ext' bnd bnd' : TimeArr K) (dt : K) (init : ℕ → ℕ → ℕ → K) (m n : ℕ) (hmn : m ≤ n)
    (hext : ∀ j < m, ext.get j = ext'.get j) (hbnd : ∀ j < m, bnd.get j = bnd'.get j) :
    Extends m (backwardEuler p xsTotal scatter fission velocity ext bnd m dt init)
      (backwardEuler p xsTotal scatter fission velocity ext' bnd' n dt init) := by
  refine loopE_extends BEState.out hmn _ _ _ (fun i hi s => ?_) fun i s s' h j hj => ?_
  · unfold beStep
    rw [hext i hi, hbnd i hi]
  · unfold beStep at h
    repeat' split at h
    all_goals first | contradiction | (cases h; exact Function.update_of_ne hj _ _)

/-- C189: `timed1d.bdf2`. -/
theorem C189_bdf2 (p : Problem K) (xsTotal : ℕ → ℕ → K) (scatter : Scatter K) (fission : Fission K)
    (velocity : ℕ → K) (ext ext' bnd bnd' : TimeArr K) (dt : K) (init : ℕ → ℕ → ℕ → K) (m n : ℕ) (hmn : m ≤ n)
    (hext : ∀ j < m, ext.get j = ext'.get j) (hbnd : ∀ j < m, bnd.get j = bnd'.get j) :
    Extends m (bdf2 p xsTotal scatter fission velocity ext bnd m dt init)
      (bdf2 p xsTotal scatter fission velocity ext' bnd' n dt init) := by
  refine loopE_extends BDFState.out hmn _ _ _ (fun i hi s => ?_) fun i s s' h j hj => ?_
  · unfold bdfStep
    rw [hext i hi, hbnd i hi]
  · unfold bdfStep at h
    repeat' split at h
    all_goals first | contradiction | skip
    all_goals
      dsimp only at h
      split at h
      · contradiction
      · cases h; exact Function.update_of_ne hj _ _

/-- C189: `hybrid1d.backward_euler` and `hybrid1d.bdf2`. -/
theorem C189_hybrid (second : Bool) (pU pC : Problem K) (xsTotalU xsTotalC : ℕ → ℕ → K)
    (scatterU scatterC : Scatter K) (fissionU fissionC : Fission K) (velocityU velocityC : ℕ → K)
    (ext ext' bnd bnd' : TimeArr K) (coarse : ℕ → ℕ) (factor : ℕ → K) (dt : K)
    (init : ℕ → ℕ → ℕ → K) (m n : ℕ) (hmn : m ≤ n)
    (hext : ∀ j < m, ext.get j = ext'.get j) (hbnd : ∀ j < m, bnd.get j = bnd'.get j) :
    Extends m
      (hybridRun second pU pC xsTotalU xsTotalC scatterU scatterC fissionU fissionC velocityU velocityC ext bnd coarse
        factor m dt init)
      (hybridRun second pU pC xsTotalU xsTotalC scatterU scatterC fissionU fissionC velocityU velocityC ext' bnd' coarse
        factor n dt init) := by
  refine loopE_extends HybState.out hmn _ _ _ (fun i hi s => ?_) fun i s s' h j hj => ?_
  · unfold hybridStep
    rw [hext i hi, hbnd i hi]
  · unfold hybridStep at h
    generalize ext'.get i = a at h
    generalize bnd'.get i = b at h
    rcases a with e | a <;> rcases b with e' | b
    all_goals first | contradiction | skip
    dsimp only at h
    split at h
    · contradiction
    · split at h
      · contradiction
      · cases h; exact Function.update_of_ne hj _ _

/-- C189: `hybrid1d.auto_bdf1` and `hybrid1d.auto_bdf2`. -/
theorem C189_auto (second : Bool) (p : Problem K) (bc : Setup.BcX) (gauss : ℕ → List (K × K))
    (convC : (ℕ → ℕ → K) → (ℕ → ℕ → K) → Bool) (M : ℕ) (xsTotal : ℕ → ℕ → K)
    (scatter : ℕ → ℕ → ℕ → K) (fission : FissionArr K) (velocity : ℕ → K)
    (ext ext' bnd bnd' : TimeArr K) (anglesC groupsC : ℕ) (grid : EnergyGrid K) (dt : K)
    (chiU chiC : Option (ℕ → ℕ → K)) (init : ℕ → ℕ → ℕ → K) (m n : ℕ) (hmn : m ≤ n)
    (hext : ∀ j < m, ext.get j = ext'.get j) (hbnd : ∀ j < m, bnd.get j = bnd'.get j) :
    Extends m
      (autoBdf second p bc gauss convC M xsTotal scatter fission velocity ext bnd anglesC groupsC grid m dt chiU chiC init)
      (autoBdf second p bc gauss convC M xsTotal scatter fission velocity ext' bnd' anglesC groupsC grid n dt chiU chiC
        init) := by
  have err : ∀ e : PyErr, Extends (β := ℕ → ℕ → K) m (.error e) (.error e) := fun e =>
    ⟨fun r h => absurd h (by simp), fun _ h => h⟩
  unfold autoBdf
  dsimp only
  cases collidedData M p.groups groupsC grid xsTotal scatter fission velocity with
  | error e => exact err e
  | ok d =>
    obtain ⟨groups, xsTotalC, scatterC, fissC, velocityC⟩ := d
    dsimp only
    cases collidedAngles p bc gauss anglesC with
    | error e => exact err e
    | ok a =>
      obtain ⟨angleXC, angleWC⟩ := a
      dsimp only
      cases fissionArg M p.groups fission chiU with
      | error e => exact err e
      | ok fU =>
        dsimp only
        cases fissionArg M groups fissC chiC with
        | error e => exact err e
        | ok fC => exact C189_hybrid second _ _ _ _ _ _ _ _ _ _ ext ext' bnd bnd' _ _ dt init m n hmn hext hbnd

/-- A step of `vhybrid1d` writes only its own entry. -/
theorem vhybridStep_own (second : Bool) (pU : Problem K) (grid : ℕ → Collided K) (xsTotal : ℕ → ℕ → K)
    (xs : ℕ → ℕ → ℕ → K) (velocity : ℕ → K) (ext bnd : TimeArr K) (dt : K) (i : ℕ) (s s' : VHybState K)
    (h : vhybridStep second pU grid xsTotal xs velocity ext bnd dt i s = .ok s') (j : ℕ) (hj : j ≠ i) :
    s'.out j = s.out j := by
  unfold vhybridStep at h
  generalize ext.get i = a at h
  generalize bnd.get i = b at h
  rcases a with e | a <;> rcases b with e' | b
  all_goals first | contradiction | skip
  dsimp only at h
  split at h
  · contradiction
  · split at h
    · contradiction
    · cases h; exact Function.update_of_ne hj _ _

/-- C189: `vhybrid1d.backward_euler` and `vhybrid1d.bdf2`; the collided grids of the first `m` steps matter. -/
theorem C189_variable_hybrid (second : Bool) (pU : Problem K) (grid grid' : ℕ → Collided K) (xsTotal : ℕ → ℕ → K)
    (scatter fission : ℕ → ℕ → ℕ → K) (velocity : ℕ → K) (ext ext' bnd bnd' : TimeArr K) (dt : K)
    (init : ℕ → ℕ → ℕ → K) (m n : ℕ) (hmn : m ≤ n)
    (hext : ∀ j < m, ext.get j = ext'.get j) (hbnd : ∀ j < m, bnd.get j = bnd'.get j)
    (hgrid : ∀ j < m, grid j = grid' j) :
    Extends m (vhybridRun second pU grid xsTotal scatter fission velocity ext bnd m dt init)
      (vhybridRun second pU grid' xsTotal scatter fission velocity ext' bnd' n dt init) := by
  refine loopE_extends VHybState.out hmn _ _ _ (fun i hi s => ?_) fun i s s' h j hj => ?_
  · unfold vhybridStep
    rw [hext i hi, hbnd i hi, hgrid i hi]
  · exact vhybridStep_own _ _ _ _ _ _ _ _ _ _ _ _ h j hj

/-- C189: the calls of `vhybrid1d`, with numbers of collided groups and angles given once or per step. -/
theorem C189_variable_hybrid_call (second : Bool) (p : Problem K) (bc : Setup.BcX) (gauss : ℕ → List (K × K))
    (convC : ℕ → (ℕ → ℕ → K) → (ℕ → ℕ → K) → Bool) (st : Stock K) (grid : ℕ) (groupsC anglesC : Count)
    (xsTotal : ℕ → ℕ → K) (scatter fission : ℕ → ℕ → ℕ → K) (velocity : ℕ → K)
    (ext ext' bnd bnd' : TimeArr K) (dt : K) (init : ℕ → ℕ → ℕ → K) (m n : ℕ) (hmn : m ≤ n)
    (hext : ∀ j < m, ext.get j = ext'.get j) (hbnd : ∀ j < m, bnd.get j = bnd'.get j) :
    Extends m
      (vhybridCall second p bc gauss convC st grid groupsC anglesC xsTotal scatter fission velocity ext bnd m dt init)
      (vhybridCall second p bc gauss convC st grid groupsC anglesC xsTotal scatter fission velocity ext' bnd' n dt
        init) := by
  have run : Extends m
      ((loopE m (callStep second p bc gauss convC st grid groupsC anglesC xsTotal
        (fun m o i => scatter m o i + fission m o i) velocity ext bnd dt)
        ⟨init, fun _ _ _ => 0, fun g => 1 / (velocity g * dt), fun _ _ _ => 0⟩).map VHybState.out)
      ((loopE n (callStep second p bc gauss convC st grid groupsC anglesC xsTotal
        (fun m o i => scatter m o i + fission m o i) velocity ext' bnd' dt)
        ⟨init, fun _ _ _ => 0, fun g => 1 / (velocity g * dt), fun _ _ _ => 0⟩).map VHybState.out) := by
    refine loopE_extends VHybState.out hmn _ _ _ (fun i hi s => ?_) fun i s s' h j hj => ?_
    · unfold callStep vhybridStep
      rw [hext i hi, hbnd i hi]
    · unfold callStep at h
      repeat' split at h
      all_goals first | contradiction | exact vhybridStep_own _ _ _ _ _ _ _ _ _ _ _ _ h j hj
  unfold vhybridCall
  cases groupsC with
  | int c =>
    dsimp only
    cases energyGridChange st grid p.groups c with
    | error e => exact ⟨fun r h => absurd h (by simp), fun _ h => h⟩
    | ok _ => exact run
  | _ => exact run

/-- Cutting a time-dependent source after `m` steps does not change what the first `m` steps read. -/
theorem get_truncated (at_ : ℕ → Arr3 K) (m n : ℕ) (hmn : m ≤ n) (j : ℕ) (hj : j < m) :
    (⟨m, at_⟩ : TimeArr K).get j = (⟨n, at_⟩ : TimeArr K).get j := by
  unfold TimeArr.get bidx
  by_cases h1 : m = 1
  · have : j = 0 := by omega
    subst this
    simp [h1, show 0 < n by omega]
  · have : n ≠ 1 := by omega
    simp [h1, this, hj, show j < n by omega]

/-- C189 in the simplest form: a run over the first `m` entries of a source returns the first `m` entries of the run over
all of it. -/
theorem C189_truncated (p : Problem K) (xsTotal : ℕ → ℕ → K) (scatter : Scatter K) (fission : Fission K)
    (velocity : ℕ → K) (source boundary : ℕ → Arr3 K) (dt : K) (init : ℕ → ℕ → ℕ → K) (m n : ℕ) (hmn : m ≤ n)
    (out : ℕ → ℕ → ℕ → K)
    (h : backwardEuler p xsTotal scatter fission velocity ⟨n, source⟩ ⟨n, boundary⟩ n dt init = .ok out) :
    ∃ out', backwardEuler p xsTotal scatter fission velocity ⟨m, source⟩ ⟨m, boundary⟩ m dt init = .ok out' ∧
      ∀ j < m, out' j = out j :=
  (C189_backward_euler p xsTotal scatter fission velocity _ _ _ _ dt init m n hmn (get_truncated source m n hmn)
    (get_truncated boundary m n hmn)).entries out h

/-- C189: a source wrapped by `time_dependence_constant` is the same at every step, for any number of steps, and the
integrators return what they return for the source written out step by step. -/
theorem C189_constant_source (p : Problem K) (xsTotal : ℕ → ℕ → K) (scatter : Scatter K) (fission : Fission K)
    (velocity : ℕ → K) (source : Arr3 K) (bnd : TimeArr K) (dt : K) (init : ℕ → ℕ → ℕ → K) (n : ℕ) :
    (∀ j, (Ambe.timeDependenceConstant source).get j = .ok source) ∧
    backwardEuler p xsTotal scatter fission velocity (Ambe.timeDependenceConstant source) bnd n dt init
      = backwardEuler p xsTotal scatter fission velocity ⟨n, fun _ => source⟩ bnd n dt init ∧
    bdf2 p xsTotal scatter fission velocity (Ambe.timeDependenceConstant source) bnd n dt init
      = bdf2 p xsTotal scatter fission velocity ⟨n, fun _ => source⟩ bnd n dt init := by
  have h1 : ∀ j, (Ambe.timeDependenceConstant source).get j = .ok source := by
    intro j
    unfold TimeArr.get Ambe.timeDependenceConstant bidx
    simp
  have h2 : ∀ j < n, (⟨n, fun _ => source⟩ : TimeArr K).get j = .ok source := by
    intro j hj
    unfold TimeArr.get bidx
    by_cases hn : n = 1
    · simp [hn]
    · simp [hn, hj]
  refine ⟨h1, ?_, ?_⟩
  · unfold backwardEuler
    rw [loopE_congr _ _ _ _ fun i hi s => ?_]
    unfold beStep
    rw [h1, h2 i hi]
  · unfold bdf2
    rw [loopE_congr _ _ _ _ fun i hi s => ?_]
    unfold bdfStep
    rw [h1, h2 i hi]

end General

/-! ### Examples -/

/-- A source that is on until step 3 and one that is never switched off. -/
def exPulse (last : ℕ) : TimeArr ℚ := ⟨10, fun j => ⟨1, 1, fun _ _ _ => if j < last then 1 else 0⟩⟩

theorem exPulse_get (j : ℕ) (hj : j < 3) : (exPulse 3).get j = (exPulse 10).get j := by
  have : j < 10 := by omega
  simp [exPulse, TimeArr.get, bidx, hj, this]

/-- The hypothesis of `C189_truncated` is met: the run ends well. -/
example : ∃ out, backwardEuler exFine exTotal (.iso fun _ _ _ => 1 / 10) (.matrix fun _ _ _ => 0) (fun g => (g : ℚ) + 1)
    (exPulse 3) (exPulse 3) 10 (1 / 4) (fun _ _ _ => 1) = .ok out := by
  obtain ⟨out, _, h, _⟩ := C32_backward_euler exFine exTotal (fun _ _ _ => 1 / 10) (.matrix fun _ _ _ => 0)
    (fun g => (g : ℚ) + 1) (exPulse 3) (exPulse 3) 10 (1 / 4) (fun _ _ _ => 1) exSlow (by show 0 < 2; omega) (Or.inr le_rfl)
    (Or.inr le_rfl)
  exact ⟨out, h⟩

example := C189_backward_euler exFine exTotal (.iso fun _ _ _ => 1 / 10) (.matrix fun _ _ _ => 0) (fun g => (g : ℚ) + 1)
  (exPulse 3) (exPulse 10) (exPulse 3) (exPulse 10) (1 / 4) (fun _ _ _ => 1) 3 10 (by omega) exPulse_get exPulse_get

example := C189_bdf2 exFine exTotal (.iso fun _ _ _ => 1 / 10) (.matrix fun _ _ _ => 0) (fun g => (g : ℚ) + 1)
  (exPulse 3) (exPulse 10) (exPulse 3) (exPulse 10) (1 / 4) (fun _ _ _ => 1) 3 10 (by omega) exPulse_get exPulse_get

example := C189_hybrid true exFine exFine exTotal exTotal (.iso fun _ _ _ => 1 / 10) (.iso fun _ _ _ => 1 / 10)
  (.matrix fun _ _ _ => 0) (.matrix fun _ _ _ => 0) (fun g => (g : ℚ) + 1) (fun g => (g : ℚ) + 1)
  (exPulse 3) (exPulse 10) (exPulse 3) (exPulse 10) id (fun _ => 1) (1 / 4) (fun _ _ _ => 1) 3 10 (by omega) exPulse_get
  exPulse_get

example := C189_constant_source exFine exTotal (.iso fun _ _ _ => 1 / 10) (.matrix fun _ _ _ => 0) (fun g => (g : ℚ) + 1)
  ⟨1, 1, fun i _ _ => (i : ℚ)⟩ (exPulse 3) (1 / 4) (fun _ _ _ => 1) 7

end Discrete1.Props
