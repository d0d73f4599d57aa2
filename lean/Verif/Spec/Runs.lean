import Mathlib.Order.Basic

/-! Specification vocabulary for the `while` loops that stop on a criterion or after a limit. -/

namespace Discrete1.Spec

/-- A run of such a loop: states `x 0 .. x n`, one successful pass between consecutive ones, which stopped after
`n` passes because the limit was reached or the criterion held, and did not stop before. -/
structure Run {S ε : Type*} (step : S → Except ε S) (conv : S → S → Bool) (limit : ℕ) (s : S) (x : ℕ → S)
    (n : ℕ) : Prop where
  start : x 0 = s
  pos : 1 ≤ n
  le : n ≤ limit
  steps : ∀ j < n, step (x j) = .ok (x (j + 1))
  stopped : n < limit → conv (x n) (x (n - 1)) = true
  notBefore : ∀ j, 1 ≤ j → j < n → conv (x j) (x (j - 1)) = false

/-- There is only one: the loop is deterministic, so the number of passes and the states are determined. -/
theorem Run.unique {S ε : Type*} {step : S → Except ε S} {conv : S → S → Bool} {limit : ℕ} {s : S}
    {x x' : ℕ → S} {n n' : ℕ} (h : Run step conv limit s x n) (h' : Run step conv limit s x' n') :
    n = n' ∧ ∀ j ≤ n, x j = x' j := by
  have same : ∀ j, j ≤ n → j ≤ n' → x j = x' j := by
    intro j
    induction j with
    | zero => intro _ _; rw [h.start, h'.start]
    | succ j ih =>
      intro h1 h2
      have a := h.steps j (by omega)
      rw [ih (by omega) (by omega), h'.steps j (by omega)] at a
      exact (Except.ok.inj a).symm
  have key : ∀ {x x' : ℕ → S} {n n' : ℕ}, Run step conv limit s x n → Run step conv limit s x' n' →
      (∀ j, j ≤ n → j ≤ n' → x j = x' j) → ¬ n < n' := by
    intro x x' n n' h h' same hlt
    have a := h.stopped (Nat.lt_of_lt_of_le hlt h'.le)
    have b := h'.notBefore n h.pos hlt
    rw [same n (by omega) (by omega), same (n - 1) (by omega) (by omega), b] at a
    cases a
  have e : n = n' := by
    have := key h h' same
    have := key h' h fun j h1 h2 => (same j h2 h1).symm
    omega
  exact ⟨e, fun j hj => same j hj (e ▸ hj)⟩

end Discrete1.Spec
