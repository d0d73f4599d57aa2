import Mathlib.Algebra.BigOperators.Group.Finset.Basic
import Mathlib.Algebra.Field.Defs
import Mathlib.Algebra.Order.Ring.Defs

/-!
# Specification: the infinite-medium multigroup balance
-/

namespace Discrete1.Spec

open Finset

variable {K : Type*} [Field K]

/-- `sigma_g phi_g = sum_g' xs[g,g'] phi_g' + q_g` in every group. -/
def InfiniteMedium (G : ℕ) (sigma : ℕ → K) (xs : ℕ → ℕ → K) (q phi : ℕ → K) : Prop :=
  ∀ g < G, sigma g * phi g = ∑ g' ∈ range G, xs g g' * phi g' + q g

/-- Subcritical infinite medium: non-negative transfer, and the transfer into a group is at most
`c` times its total cross section. -/
structure Subcritical0 [LinearOrder K] (G : ℕ) (sigma : ℕ → K) (xs : ℕ → ℕ → K) (c : K) : Prop where
  pos : ∀ g < G, 0 < sigma g
  nonneg : ∀ g < G, ∀ g' < G, 0 ≤ xs g g'
  le : ∀ g < G, ∑ g' ∈ range G, xs g g' ≤ c * sigma g

/-- `(phi, k)` is an infinite-medium eigenpair: `sigma phi = xs phi + F phi / k`. -/
def InfiniteEigenpair (G : ℕ) (sigma : ℕ → K) (xs F : ℕ → ℕ → K) (phi : ℕ → K) (k : K) : Prop :=
  ∀ g < G, sigma g * phi g
    = ∑ g' ∈ range G, xs g g' * phi g' + (∑ g' ∈ range G, F g g' * phi g') / k

end Discrete1.Spec
