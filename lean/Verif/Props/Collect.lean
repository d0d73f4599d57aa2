import Verif.Props.MultiGroup

/-! # C29, C30: saved iterates and DMD snapshots -/

set_option linter.unusedSectionVars false
set_option linter.unusedSimpArgs false

namespace Discrete1.Props

open Finset Discrete1.Tools Discrete1.Spec Discrete1.MultiGroup Discrete1.Buffers

variable {K : Type*} [Field K] [LinearOrder K] [IsStrictOrderedRing K]

/-! ## C29 -/

theorem collectLoop_spec (sweep : (ℕ → ℕ → K) → Except PyErr (ℕ → ℕ → K))
    (conv : (ℕ → ℕ → K) → (ℕ → ℕ → K) → Bool) :
    ∀ (left count : ℕ) (old : ℕ → ℕ → K) (tr : ℕ → ℕ → ℕ → K), 1 ≤ count →
    (∀ e, iterateE sweep conv left old = .error e → collectLoop sweep conv left count old tr = .error e) ∧
    (∀ f, iterateE sweep conv left old = .ok f →
      ∃ m tr', m ≤ left ∧ collectLoop sweep conv left count old tr = .ok (f, count + m, tr') ∧
        (∀ k < count - 1, tr' k = tr k) ∧ tr' (count - 1 + m) = f ∧
        sweep old = .ok (tr' (count - 1)) ∧
        (∀ j < m, sweep (tr' (count - 1 + j)) = .ok (tr' (count - 1 + j + 1)))) := by
  intro left
  induction left with
  | zero =>
    intro count old tr hc
    unfold iterateE collectLoop
    constructor
    · intro e he; rw [he]
    · intro f hf
      rw [hf]
      refine ⟨0, Function.update tr (count + 1 - 2) f, le_refl _, rfl, fun k hk => ?_, ?_, ?_, ?_⟩
      · rw [Function.update_of_ne (by omega)]
      · rw [show count - 1 + 0 = count + 1 - 2 by omega, Function.update_self]
      · rw [show count - 1 = count + 1 - 2 by omega, Function.update_self]
      · intro j hj; omega
  | succ left ih =>
    intro count old tr hc
    unfold iterateE collectLoop
    cases hs : sweep old with
    | error e' => exact ⟨fun e he => by simpa using he, fun f hf => by simp at hf⟩
    | ok v =>
      by_cases hv : conv v old = true
      · simp only [hv, if_true]
        refine ⟨fun e he => by simp at he, fun f hf => ?_⟩
        have hf : v = f := by simpa using hf
        subst hf
        refine ⟨0, Function.update tr (count + 1 - 2) v, Nat.zero_le _, rfl, fun k hk => ?_, ?_, ?_, ?_⟩
        · rw [Function.update_of_ne (by omega)]
        · rw [show count - 1 + 0 = count + 1 - 2 by omega, Function.update_self]
        · rw [show count - 1 = count + 1 - 2 by omega, Function.update_self]
        · intro j hj; omega
      · simp only [hv, if_false]
        have hi := ih (count + 1) v (Function.update tr (count + 1 - 2) v) (by omega)
        refine ⟨hi.1, fun f hf => ?_⟩
        obtain ⟨m, tr', h1, h2, h3, h4, h5, h6⟩ := hi.2 f hf
        have h7 : tr' (count - 1) = v := by
          rw [h3 _ (by omega), show count - 1 = count + 1 - 2 by omega, Function.update_self]
        refine ⟨m + 1, tr', by omega, by rw [show count + (m + 1) = count + 1 + m by ring]; exact h2,
          fun k hk => ?_, ?_, by rw [h7], fun j hj => ?_⟩
        · rw [h3 k (by omega), Function.update_of_ne (by omega)]
        · rw [show count - 1 + (m + 1) = count + 1 - 1 + m by omega]; exact h4
        · cases j with
          | zero =>
            rw [add_zero, h7, show count - 1 + 1 = count + 1 - 1 by omega]; exact h5
          | succ j =>
            have := h6 j (by omega)
            rw [show count - 1 + (j + 1) = count + 1 - 1 + j by omega]
            exact this

/-- C29: `source_iteration_collect` raises exactly when source iteration raises; otherwise it returns
the same flux and saves `len` arrays (`1 ≤ len ≤ 100`): the first is one sweep of the initial guess,
each further one a sweep of its predecessor, the last one is the returned flux. -/
theorem C29_collect (p : Problem K) (xsTotal : ℕ → ℕ → K) (xs : ℕ → ℕ → ℕ → K)
    (external boundary : Arr3 K) (old : ℕ → ℕ → K) :
    (∀ e, sourceIteration p xsTotal (.iso xs) external boundary old = .error e →
      sourceIterationCollect p xsTotal xs external boundary old = .error e) ∧
    (∀ f, sourceIteration p xsTotal (.iso xs) external boundary old = .ok f →
      ∃ len saved, sourceIterationCollect p xsTotal xs external boundary old = .ok (f, len, saved) ∧
        1 ≤ len ∧ len ≤ 100 ∧ saved (len - 1) = f ∧
        oneSweepIso p xsTotal xs external boundary old = .ok (saved 0) ∧
        ∀ k, k + 1 < len → oneSweepIso p xsTotal xs external boundary (saved k) = .ok (saved (k + 1))) := by
  have h := collectLoop_spec (oneSweepIso p xsTotal xs external boundary) p.convOut 99 1 old
    (fun _ _ _ => 0) (le_refl _)
  refine ⟨fun e he => h.1 e he, fun f hf => ?_⟩
  obtain ⟨m, tr, h1, h2, -, h4, h5, h6⟩ := h.2 f hf
  refine ⟨1 + m, tr, h2, by omega, by omega, ?_, h5, fun k hk => ?_⟩
  · rw [show 1 + m - 1 = 1 - 1 + m by omega]; exact h4
  · have := h6 k (by omega)
    rwa [show 1 - 1 + k = k by omega] at this

/-! ## C30 -/

/-- `x 0, x 1, ..., x m` are the iterates of the sweep, started at `x 0`. -/
def Iterates {α ε : Type*} (sweep : α → Except ε α) (x : ℕ → α) (m : ℕ) : Prop :=
  ∀ k < m, sweep (x k) = .ok (x (k + 1))

theorem dmdWarmup_spec (G : ℕ)
    (step : (ℕ → ℕ → K) → ℕ → (ℕ → ℕ → K) → Except PyErr (ℕ → ℕ → K))
    (conv : (ℕ → ℕ → K) → (ℕ → ℕ → K) → Bool) :
    ∀ (R flux old : ℕ) (h : Heap K) (x : ℕ → ℕ → ℕ → K), flux ≠ old → flux ≠ 0 → old ≠ 0 →
      h old = x 0 → Iterates (fun o => loopE G (step o) fun _ _ => 0) x R →
      ((∀ k < R, conv (x (k + 1)) (x k) = false) → ∃ h' f o, dmdWarmup G step conv R flux old h
        = .ok (h', f, some o) ∧ f ≠ o ∧ f ≠ 0 ∧ o ≠ 0 ∧ h' o = x R ∧ h' 0 = h 0) ∧
      (∀ k < R, (∀ j < k, conv (x (j + 1)) (x j) = false) → conv (x (k + 1)) (x k) = true →
        ∃ h' f, dmdWarmup G step conv R flux old h = .ok (h', f, none) ∧ h' f = x (k + 1) ∧
          h' 0 = h 0) := by
  intro R
  induction R with
  | zero =>
    intro flux old h x h1 h2 h3 hx _
    exact ⟨fun _ => ⟨h, flux, old, rfl, h1, h2, h3, hx, rfl⟩, fun k hk => by omega⟩
  | succ R ih =>
    intro flux old h x h1 h2 h3 hx hit
    have hs : loopE G (step (x 0)) (fun _ _ => 0) = .ok (x 1) := hit 0 (by omega)
    unfold dmdWarmup
    rw [sweepInto_eq G step flux old h1 h, hx, hs]
    simp only [Except.map, Function.update_self, Function.update_of_ne h1.symm, hx]
    have hi := ih old flux (Function.update h flux (x 1)) (fun k => x (k + 1)) h1.symm h3 h2
      (by simp) (fun k hk => hit (k + 1) (by omega))
    have h0 : Function.update h flux (x 1) 0 = h 0 := Function.update_of_ne h2.symm _ _
    rw [h0] at hi
    refine ⟨fun hn => ?_, fun k hk hn hc => ?_⟩
    · have := hn 0 (by omega)
      rw [zero_add] at this
      rw [this]
      simp only [Bool.false_eq_true, if_false]
      exact hi.1 fun k hk => hn (k + 1) (by omega)
    · cases k with
      | zero =>
        rw [zero_add] at hc
        rw [hc]
        simp only [if_true]
        exact ⟨_, _, rfl, by simp, h0⟩
      | succ k =>
        have := hn 0 (by omega)
        rw [zero_add] at this
        rw [this]
        simp only [Bool.false_eq_true, if_false]
        exact hi.2 k (by omega) (fun j hj => hn (j + 1) (by omega)) hc

theorem dmdCollect_spec (G : ℕ)
    (step : (ℕ → ℕ → K) → ℕ → (ℕ → ℕ → K) → Except PyErr (ℕ → ℕ → K))
    (conv : (ℕ → ℕ → K) → (ℕ → ℕ → K) → Bool) (snap : ℕ) :
    ∀ (todo kk flux old : ℕ) (y : Snapshots K) (h : Heap K) (x : ℕ → ℕ → ℕ → K),
      kk + todo = snap → flux ≠ old → flux ≠ 0 → old ≠ 0 →
      h old = x kk →
      (∀ k, kk ≤ k → k < snap → loopE G (step (x k)) (fun _ _ => 0) = .ok (x (k + 1))) →
      ((∀ k, kk ≤ k → k < snap → conv (x (k + 1)) (x k) = false) →
        ∃ h' o y', dmdCollect G step conv snap todo kk flux old y h = .ok (h', o, some y') ∧
          h' o = x snap ∧ h' 0 = h 0 ∧
          (∀ k < snap - 1, y'.minus k = if k < kk then y.minus k else
            fun i g => x (k + 1) i g - x k i g) ∧
          (∀ k < snap - 1, y'.plus k = if k + 1 < kk then y.plus k else
            fun i g => x (k + 2) i g - x (k + 1) i g)) ∧
      (∀ k, kk ≤ k → k < snap → (∀ j, kk ≤ j → j < k → conv (x (j + 1)) (x j) = false) →
        conv (x (k + 1)) (x k) = true →
        ∃ h' f, dmdCollect G step conv snap todo kk flux old y h = .ok (h', f, none) ∧
          h' f = x (k + 1) ∧ h' 0 = h 0) := by
  intro todo
  induction todo with
  | zero =>
    intro kk flux old y h x hk h1 h2 h3 hx _
    have : kk = snap := by omega
    subst this
    refine ⟨fun _ => ⟨h, old, y, rfl, hx, rfl, fun k hk => ?_, fun k hk => ?_⟩, fun k a b => by omega⟩
    · rw [if_pos (by omega)]
    · rw [if_pos (by omega)]
  | succ todo ih =>
    intro kk flux old y h x hk h1 h2 h3 hx hit
    have hs := hit kk (le_refl _) (by omega)
    unfold dmdCollect
    rw [sweepInto_eq G step flux old h1 h, hx, hs]
    simp only [Except.map, Function.update_self, Function.update_of_ne h1.symm, hx]
    have h0 : Function.update h flux (x (kk + 1)) 0 = h 0 := Function.update_of_ne h2.symm _ _
    refine ⟨fun hn => ?_, fun k hk1 hk2 hn hc => ?_⟩
    · rw [hn kk (le_refl _) (by omega)]
      simp only [Bool.false_eq_true, if_false]
      obtain ⟨h', o, y', e1, e2, e3, e4, e5⟩ := (ih (kk + 1) old flux
        { minus := if kk < snap - 1 then Function.update y.minus kk
              (fun i g => x (kk + 1) i g - x kk i g) else y.minus
          plus := if 0 < kk then Function.update y.plus (kk - 1)
              (fun i g => x (kk + 1) i g - x kk i g) else y.plus }
        (Function.update h flux (x (kk + 1))) x (by omega) h1.symm h3 h2 (by simp)
        (fun k a b => hit k (by omega) b)).1 (fun k a b => hn k (by omega) b)
      refine ⟨h', o, y', e1, e2, by rw [e3, h0], fun k hk => ?_, fun k hk => ?_⟩
      · rw [e4 k hk]
        by_cases a : k < kk
        · rw [if_pos (by omega), if_pos a]
          simp only
          split_ifs
          · rw [Function.update_of_ne (by omega)]
          · rfl
        · by_cases b : k = kk
          · subst b
            rw [if_pos (by omega), if_neg a]
            simp only
            rw [if_pos (by omega), Function.update_self]
          · rw [if_neg (by omega), if_neg a]
      · rw [e5 k hk]
        by_cases a : k + 1 < kk
        · rw [if_pos (by omega), if_pos a]
          simp only
          rw [if_pos (by omega), Function.update_of_ne (by omega)]
        · by_cases b : k + 1 = kk
          · subst b
            rw [if_pos (by omega), if_neg a]
            simp only [Nat.succ_pos, if_true, Nat.add_sub_cancel, Function.update_self]
          · rw [if_neg (by omega), if_neg a]
    · by_cases a : k = kk
      · subst a
        rw [hc]
        simp only [if_true]
        exact ⟨_, _, rfl, by simp, h0⟩
      · rw [hn kk (le_refl _) (by omega)]
        simp only [Bool.false_eq_true, if_false]
        obtain ⟨h', f, e1, e2, e3⟩ := (ih (kk + 1) old flux
          { minus := if kk < snap - 1 then Function.update y.minus kk
                (fun i g => x (kk + 1) i g - x kk i g) else y.minus
            plus := if 0 < kk then Function.update y.plus (kk - 1)
                (fun i g => x (kk + 1) i g - x kk i g) else y.plus }
          (Function.update h flux (x (kk + 1))) x (by omega) h1.symm h3 h2 (by simp)
          (fun k a b => hit k (by omega) b)).2 k (by omega) hk2 (fun j a b => hn j (by omega) b) hc
        exact ⟨h', f, e1, e2, by rw [e3, h0]⟩

/-- C30: let `x 0, x 1, ...` be the source-iteration iterates started from the caller's flux (array 0).
If none of the first `R + K` sweeps meets the tolerance, `dynamic_mode_decomp` hands to `dmd` the last
iterate `x (R+K)` and snapshot matrices whose column `k` is `x (R+k+1) - x (R+k)` (`y_minus`) and
`x (R+k+2) - x (R+k+1)` (`y_plus`), for all `K - 1` columns; the caller's array is unchanged although
the two work arrays are swapped after every sweep. -/
theorem C30_snapshots (G : ℕ)
    (step : (ℕ → ℕ → K) → ℕ → (ℕ → ℕ → K) → Except PyErr (ℕ → ℕ → K))
    (conv : (ℕ → ℕ → K) → (ℕ → ℕ → K) → Bool) (R snap : ℕ) (h : Heap K) (x : ℕ → ℕ → ℕ → K)
    (hx : x 0 = h 0) (hit : Iterates (fun o => loopE G (step o) fun _ _ => 0) x (R + snap))
    (hn : ∀ k < R + snap, conv (x (k + 1)) (x k) = false) :
    ∃ h' f y, dynamicModeDecomp G step conv R snap h = .ok (h', .extrapolate f y) ∧
      h' f = x (R + snap) ∧ h' 0 = h 0 ∧
      ∀ k < snap - 1, (∀ i g, y.minus k i g = x (R + k + 1) i g - x (R + k) i g) ∧
        ∀ i g, y.plus k i g = x (R + k + 2) i g - x (R + k + 1) i g := by
  unfold dynamicModeDecomp
  have hz : (Function.update (Function.update h 1 fun _ _ => (0 : K)) 2 (h 0)) 0 = h 0 := by
    simp [Function.update_of_ne]
  obtain ⟨h', f, o, e1, e2, e3, e4, e5, e6⟩ := (dmdWarmup_spec G step conv R 1 2
    (Function.update (Function.update h 1 fun _ _ => (0 : K)) 2 (h 0)) x (by omega) (by omega) (by omega)
    (by simp [hx]) (fun k hk => hit k (by omega))).1 (fun k hk => hn k (by omega))
  simp only
  rw [e1]
  simp only
  obtain ⟨h'', o', y, d1, d2, d3, d4, d5⟩ := (dmdCollect_spec G step conv snap snap 0 f o
    ⟨fun _ _ _ => 0, fun _ _ _ => 0⟩ h' (fun k => x (R + k)) (by omega) e2 e3 e4 e5
    (fun k _ hk => hit (R + k) (by omega))).1 (fun k _ hk => hn (R + k) (by omega))
  rw [d1]
  refine ⟨h'', o', y, rfl, d2, by rw [d3, e6, hz], fun k hk => ⟨fun i g => ?_, fun i g => ?_⟩⟩
  · rw [d4 k hk]; rfl
  · rw [d5 k hk]; rfl

/-- C30 (early convergence): if sweep `k` is the first that meets the tolerance, in the warm-up or in the
collection phase, the iterate `x (k+1)` it produced is returned. -/
theorem C30_early_convergence (G : ℕ)
    (step : (ℕ → ℕ → K) → ℕ → (ℕ → ℕ → K) → Except PyErr (ℕ → ℕ → K))
    (conv : (ℕ → ℕ → K) → (ℕ → ℕ → K) → Bool) (R snap : ℕ) (h : Heap K) (x : ℕ → ℕ → ℕ → K)
    (hx : x 0 = h 0) (hit : Iterates (fun o => loopE G (step o) fun _ _ => 0) x (R + snap))
    (k : ℕ) (hk : k < R + snap) (hn : ∀ j < k, conv (x (j + 1)) (x j) = false)
    (hc : conv (x (k + 1)) (x k) = true) :
    ∃ h' f, dynamicModeDecomp G step conv R snap h = .ok (h', .converged f) ∧ h' f = x (k + 1) ∧
      h' 0 = h 0 := by
  unfold dynamicModeDecomp
  have hz : (Function.update (Function.update h 1 fun _ _ => (0 : K)) 2 (h 0)) 0 = h 0 := by
    simp [Function.update_of_ne]
  have hw := dmdWarmup_spec G step conv R 1 2
    (Function.update (Function.update h 1 fun _ _ => (0 : K)) 2 (h 0)) x (by omega) (by omega) (by omega)
    (by simp [hx]) (fun k hk => hit k (by omega))
  simp only
  rcases Nat.lt_or_ge k R with hR | hR
  · obtain ⟨h', f, e1, e2, e3⟩ := hw.2 k hR hn hc
    rw [e1]
    exact ⟨h', f, rfl, e2, by rw [e3, hz]⟩
  · obtain ⟨h', f, o, e1, e2, e3, e4, e5, e6⟩ := hw.1 fun j hj => hn j (by omega)
    rw [e1]
    simp only
    obtain ⟨h'', f', d1, d2, d3⟩ := (dmdCollect_spec G step conv snap snap 0 f o
      ⟨fun _ _ _ => 0, fun _ _ _ => 0⟩ h' (fun k => x (R + k)) (by omega) e2 e3 e4 e5
      (fun k _ hk => hit (R + k) (by omega))).2 (k - R) (by omega) (by omega)
      (fun j _ hj => hn (R + j) (by omega)) (by
        rw [show R + (k - R + 1) = k + 1 by omega, show R + (k - R) = k by omega]; exact hc)
    rw [d1]
    refine ⟨h'', f', rfl, ?_, by rw [d3, e6, hz]⟩
    rw [d2, show R + (k - R + 1) = k + 1 by omega]

-- a step that doubles the single group: the iterates are 2^k and no two agree
example : Iterates (fun o => loopE 1 (fun _ _ => (.ok fun i g => 2 * o i g : Except PyErr (ℕ → ℕ → ℚ)))
    fun _ _ => (0 : ℚ)) (fun k _ _ => 2 ^ k) 5 := by
  intro k _
  simp only [loopE]
  congr 1
  funext i g
  rw [pow_succ]; ring

end Discrete1.Props
