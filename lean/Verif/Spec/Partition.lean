import Mathlib.Order.Basic
import Mathlib.Algebra.Order.Field.Basic

/-! Specification vocabulary for energy grids (independent of the model). -/

namespace Discrete1.Spec

/-- `e 0, ..., e C` cut the `G` fine groups `0..G-1` into `C` non-empty consecutive blocks. -/
structure IsPartition (C G : ℕ) (e : ℕ → ℕ) : Prop where
  first : e 0 = 0
  last : e C = G
  strict : ∀ c < C, e c < e (c + 1)

/-- Fine group `g` belongs to coarse group `c`. -/
def InBlock (e : ℕ → ℕ) (c g : ℕ) : Prop := e c ≤ g ∧ g < e (c + 1)

/-- The energy bounds `edges 0 < edges 1 < ... < edges G`. -/
def Increasing {K : Type*} [LT K] (G : ℕ) (edges : ℕ → K) : Prop :=
  ∀ g < G, edges g < edges (g + 1)

end Discrete1.Spec
