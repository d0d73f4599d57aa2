import Verif.Model.Basic
import Verif.Spec.Runs
import Mathlib.Algebra.BigOperators.Intervals
import Mathlib.Algebra.BigOperators.Ring.Finset
import Mathlib.Algebra.Order.BigOperators.Group.Finset
import Mathlib.Tactic.Ring
import Mathlib.Tactic.Linarith
import Mathlib.Tactic.FieldSimp

/-! Helper lemmas about the loop combinators. -/

namespace Discrete1

open Finset

variable {σ : Type*}

@[simp] theorem loop_zero (f : ℕ → σ → σ) (s : σ) : loop 0 f s = s := rfl
@[simp] theorem loop_succ (n : ℕ) (f : ℕ → σ → σ) (s : σ) :
    loop (n + 1) f s = f n (loop n f s) := rfl
@[simp] theorem loopDown_zero (f : ℕ → σ → σ) (s : σ) : loopDown 0 f s = s := rfl
@[simp] theorem loopDown_succ (n : ℕ) (f : ℕ → σ → σ) (s : σ) :
    loopDown (n + 1) f s = loopDown n f (f n s) := rfl

theorem accum_eq_sum {K : Type*} [AddCommMonoid K] (n : ℕ) (f : ℕ → K) :
    accum n f = ∑ i ∈ range n, f i := by
  unfold accum
  induction n with
  | zero => simp
  | succ n ih => rw [loop_succ, ih, sum_range_succ]

/-- Accumulating onto a starting value. -/
theorem loop_add_eq_sum {K : Type*} [AddCommMonoid K] (n : ℕ) (f : ℕ → K) (a : K) :
    loop n (fun i acc => acc + f i) a = a + ∑ i ∈ range n, f i := by
  induction n with
  | zero => simp
  | succ n ih => rw [loop_succ, ih, sum_range_succ, add_assoc]

theorem loop_congr (n : ℕ) (f g : ℕ → σ → σ) (s : σ) (h : ∀ i < n, ∀ s, f i s = g i s) :
    loop n f s = loop n g s := by
  induction n with
  | zero => rfl
  | succ n ih =>
    rw [loop_succ, loop_succ, ih (fun i hi => h i (Nat.lt_succ_of_lt hi)), h n (Nat.lt_succ_self n)]

/-- Invariant rule for `loop`. -/
theorem loop_induction (P : ℕ → σ → Prop) (n : ℕ) (f : ℕ → σ → σ) (s : σ)
    (h0 : P 0 s) (hs : ∀ i < n, ∀ s, P i s → P (i + 1) (f i s)) : P n (loop n f s) := by
  induction n with
  | zero => exact h0
  | succ n ih =>
    exact hs n (Nat.lt_succ_self n) _ (ih (fun i hi => hs i (Nat.lt_succ_of_lt hi)))

/-- Invariant rule for `loopDown`: `P k` holds when the indices `≥ k` have been processed. -/
theorem loopDown_induction (P : ℕ → σ → Prop) (n : ℕ) (f : ℕ → σ → σ) (s : σ)
    (h0 : P n s) (hs : ∀ i < n, ∀ s, P (i + 1) s → P i (f i s)) : P 0 (loopDown n f s) := by
  induction n generalizing s with
  | zero => exact h0
  | succ n ih =>
    rw [loopDown_succ]
    exact ih _ (hs n (Nat.lt_succ_self n) _ h0) (fun i hi => hs i (Nat.lt_succ_of_lt hi))

@[simp] theorem loopE_zero {ε : Type*} (f : ℕ → σ → Except ε σ) (s : σ) :
    loopE 0 f s = .ok s := rfl
theorem loopE_succ {ε : Type*} (n : ℕ) (f : ℕ → σ → Except ε σ) (s : σ) :
    loopE (n + 1) f s = match loopE n f s with
      | .error e => .error e
      | .ok s' => f n s' := rfl

/-- Success of an exception-raising loop when every body succeeds. -/
theorem loopE_ok {ε : Type*} (n : ℕ) (f : ℕ → σ → Except ε σ) (g : ℕ → σ → σ) (s : σ)
    (h : ∀ i < n, ∀ s, f i s = .ok (g i s)) : loopE n f s = .ok (loop n g s) := by
  induction n with
  | zero => rfl
  | succ n ih =>
    rw [loopE_succ, ih (fun i hi => h i (Nat.lt_succ_of_lt hi))]
    exact h n (Nat.lt_succ_self n) _

/-- Invariant rule for an exception-raising loop. -/
theorem loopE_inv {ε : Type*} (P : ℕ → σ → Prop) (n : ℕ) (f : ℕ → σ → Except ε σ) (s : σ)
    (h0 : P 0 s) (h : ∀ i < n, ∀ s, P i s → ∃ s', f i s = .ok s' ∧ P (i + 1) s') :
    ∃ s', loopE n f s = .ok s' ∧ P n s' := by
  induction n with
  | zero => exact ⟨s, rfl, h0⟩
  | succ n ih =>
    obtain ⟨s', h1, h2⟩ := ih (fun i hi => h i (Nat.lt_succ_of_lt hi))
    obtain ⟨s'', h3, h4⟩ := h n (Nat.lt_succ_self n) s' h2
    exact ⟨s'', by rw [loopE_succ, h1]; exact h3, h4⟩

theorem addAt_self {K : Type*} [Add K] (a : ℕ → K) (i : ℕ) (v : K) :
    addAt a i v i = a i + v := by simp [addAt]
theorem addAt_of_ne {K : Type*} [Add K] (a : ℕ → K) {i j : ℕ} (v : K) (h : j ≠ i) :
    addAt a i v j = a j := by simp [addAt, h]
theorem setAt_self {K : Type*} (a : ℕ → K) (i : ℕ) (v : K) : setAt a i v i = v := by simp [setAt]
theorem setAt_of_ne {K : Type*} (a : ℕ → K) {i j : ℕ} (v : K) (h : j ≠ i) :
    setAt a i v j = a j := by simp [setAt, h]
theorem addAt_apply {K : Type*} [Add K] (a : ℕ → K) (i j : ℕ) (v : K) :
    addAt a i v j = if j = i then a j + v else a j := by
  by_cases h : j = i
  · subst h; simp [addAt]
  · simp [addAt, h]
theorem setAt_apply {K : Type*} (a : ℕ → K) (i j : ℕ) (v : K) :
    setAt a i v j = if j = i then v else a j := by
  by_cases h : j = i
  · subst h; simp [setAt]
  · simp [setAt, h]

/-- What an iteration driver returns: the `k`-th iterate for some `1 ≤ k ≤ left+1`; it stops before
the limit only when the convergence test succeeded on the last two iterates. -/
theorem iterate_spec {α : Type*} (sweep : α → α) (conv : α → α → Bool) (left : ℕ) (old : α) :
    ∃ k, k ≤ left ∧ iterate sweep conv left old = sweep^[k + 1] old ∧
      (k < left → conv (sweep^[k + 1] old) (sweep^[k] old) = true) ∧
      (∀ j < k, conv (sweep^[j + 1] old) (sweep^[j] old) = false) := by
  induction left generalizing old with
  | zero => exact ⟨0, le_refl _, rfl, fun h => absurd h (lt_irrefl _), fun j hj => absurd hj (Nat.not_lt_zero _)⟩
  | succ left ih =>
    unfold iterate
    by_cases hc : conv (sweep old) old = true
    · refine ⟨0, Nat.zero_le _, by simp [hc], fun _ => by simpa using hc, fun j hj => absurd hj (Nat.not_lt_zero _)⟩
    · obtain ⟨k, hk, he, hconv, hno⟩ := ih (sweep old)
      refine ⟨k + 1, by omega, by simp [hc, he], fun h => ?_, fun j hj => ?_⟩
      · have := hconv (by omega)
        simpa [Function.iterate_succ_apply] using this
      · cases j with
        | zero => simpa using hc
        | succ j =>
          have := hno j (by omega)
          simpa [Function.iterate_succ_apply] using this

/-- Same for the driver whose body may raise, when every pass succeeds on the states that satisfy an
invariant. -/
theorem iterateE_spec {α ε : Type*} (sweep : α → Except ε α) (conv : α → α → Bool) (P : α → Prop)
    (hok : ∀ a, P a → ∃ b, sweep a = .ok b ∧ P b) (left : ℕ) (old : α) (h0 : P old) :
    ∃ (x : ℕ → α) (k : ℕ), k ≤ left ∧ x 0 = old ∧ (∀ j ≤ k, sweep (x j) = .ok (x (j + 1))) ∧
      (∀ j ≤ k + 1, P (x j)) ∧
      iterateE sweep conv left old = .ok (x (k + 1)) ∧
      (k < left → conv (x (k + 1)) (x k) = true) ∧ (∀ j < k, conv (x (j + 1)) (x j) = false) := by
  induction left generalizing old with
  | zero =>
    obtain ⟨b, hb, hP⟩ := hok old h0
    refine ⟨fun j => if j = 0 then old else b, 0, le_refl _, by simp, ?_, ?_, by simpa [iterateE] using hb,
      fun h => absurd h (lt_irrefl _), fun j hj => absurd hj (Nat.not_lt_zero _)⟩
    · intro j hj
      have : j = 0 := by omega
      subst this; simpa using hb
    · intro j _
      by_cases h : j = 0 <;> simp [h, h0, hP]
  | succ left ih =>
    obtain ⟨b, hb, hP⟩ := hok old h0
    unfold iterateE
    rw [hb]
    by_cases hc : conv b old = true
    · refine ⟨fun j => if j = 0 then old else b, 0, Nat.zero_le _, by simp, ?_, ?_, by simp [hc],
        fun _ => by simpa using hc, fun j hj => absurd hj (Nat.not_lt_zero _)⟩
      · intro j hj
        have : j = 0 := by omega
        subst this; simpa using hb
      · intro j _
        by_cases h : j = 0 <;> simp [h, h0, hP]
    · obtain ⟨x, k, hk, hx0, hstep, hinv, he, hconv, hno⟩ := ih b hP
      refine ⟨fun j => if j = 0 then old else x (j - 1), k + 1, by omega, by simp, ?_, ?_, ?_, ?_, ?_⟩
      · intro j hj
        cases j with
        | zero => simpa [hx0] using hb
        | succ j => simpa using hstep j (by omega)
      · intro j hj
        cases j with
        | zero => simpa using h0
        | succ j => simpa using hinv j (by omega)
      · simpa [hc] using he
      · intro h
        simpa using hconv (by omega)
      · intro j hj
        cases j with
        | zero => simpa [hx0] using hc
        | succ j => simpa using hno j (by omega)

/-- `iterateE` as a run. -/
theorem iterateE_run {α ε : Type*} (sweep : α → Except ε α) (conv : α → α → Bool) (P : α → Prop)
    (hok : ∀ a, P a → ∃ b, sweep a = .ok b ∧ P b) (left : ℕ) (old : α) (h0 : P old) :
    ∃ (x : ℕ → α) (n : ℕ), Spec.Run sweep conv (left + 1) old x n ∧ (∀ j ≤ n, P (x j)) ∧
      iterateE sweep conv left old = .ok (x n) := by
  obtain ⟨x, k, hk, hx0, hstep, hP, he, hconv, hno⟩ := iterateE_spec sweep conv P hok left old h0
  refine ⟨x, k + 1, ⟨hx0, by omega, by omega, fun j hj => hstep j (by omega), fun h => hconv (by omega),
    fun j h1 h2 => ?_⟩, hP, he⟩
  obtain ⟨j, rfl⟩ : ∃ i, j = i + 1 := ⟨j - 1, by omega⟩
  exact hno j (by omega)

/-- A body that always raises makes the driver raise. -/
theorem iterateE_error {α ε : Type*} (sweep : α → Except ε α) (conv : α → α → Bool) (e : ε)
    (h : ∀ a, sweep a = .error e) (left : ℕ) (old : α) : iterateE sweep conv left old = .error e := by
  cases left with
  | zero => exact h old
  | succ left => unfold iterateE; rw [h old]

end Discrete1
