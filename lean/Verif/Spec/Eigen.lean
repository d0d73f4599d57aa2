import Verif.Spec.Time

/-!
# Specification: the k-eigenvalue problem
-/

namespace Discrete1.Spec

open Finset Discrete1.Tools Discrete1.MultiGroup

variable {K : Type*} [Field K] [LinearOrder K]

/-- `(phi, k)` is an eigenpair of the discrete multigroup transport operator with fission matrix `F[g, g']`
(nothing enters except by reflection): with angular fluxes `psi g n i` on the edges,
`mu (psi_{i+1} - psi_i)/dx + sigma psi = sum_g' xs[g,g'] phi_g' + (1/k) sum_g' F[g,g'] phi_g'`. -/
structure KEigenpair (p : Problem K) (sigma : ℕ → ℕ → K) (xs F : ℕ → ℕ → ℕ → K) (phi : ℕ → ℕ → K) (k : K)
    (psi : ℕ → ℕ → ℕ → K) : Prop where
  scalar : ∀ g < p.groups, ∀ i < p.cells,
    phi i g = ∑ n ∈ range p.angles, p.angleW n * ((psi g n i + psi g n (i + 1)) / 2)
  balance : ∀ g < p.groups, ∀ n < p.angles, ∀ i < p.cells,
    p.angleX n * (psi g n (i + 1) - psi g n i) / p.dx i
        + sigma (p.mm i) g * ((psi g n i + psi g n (i + 1)) / 2)
      = ∑ g' ∈ range p.groups, xs (p.mm i) g g' * phi i g'
        + (∑ g' ∈ range p.groups, F (p.mm i) g g' * phi i g') / k
  inflow : ∀ g < p.groups, SweptInflow p.cells p.angles p.angleX p.bcL p.bcR (fun _ => 0) (fun _ => 0) (psi g)

/-- Non-negative fission data (the emission spectrum, or the whole matrix). -/
def FissionNonneg (G : ℕ) : Fission K → Prop
  | .matrix f => ∀ m, ∀ o < G, ∀ i < G, 0 ≤ f m o i
  | .vector chi _ => ∀ m, ∀ o < G, 0 ≤ chi m o

/-- Total fission production of a flux. -/
def totalProduction (p : Problem K) (F : ℕ → ℕ → ℕ → K) (phi : ℕ → ℕ → K) : K :=
  ∑ i ∈ range p.cells, ∑ g ∈ range p.groups, ∑ g' ∈ range p.groups, F (p.mm i) g g' * phi i g'

end Discrete1.Spec
