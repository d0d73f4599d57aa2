import Verif.Spec.Transport
import Verif.Model.MultiGroup

/-!
# Specification: implicit time steps of the discrete multigroup transport equation

Only the data carriers `Problem` (mesh, quadrature, flags) and `Arr3` (array with sizes) of the model
are used; a length-one axis stands for a constant.
-/

namespace Discrete1.Spec

open Finset Discrete1.Tools Discrete1.MultiGroup

variable {K : Type*} [Field K] [LinearOrder K]

/-- Value of a source array at cell `i`, angle `n`, group `g`; length-one axes are constant. -/
def sourceAt (a : Arr3 K) (i n g : ℕ) : K :=
  a.val i (if a.angles = 1 then 0 else n) (if a.groups = 1 then 0 else g)

/-- `psi i n g` (cell averages) solves one implicit time step: there are edge fluxes `e g n i` with
`psi i n g = (e g n i + e g n (i+1)) / 2`, entering the slab as `bnd` (plus reflection) prescribes and
`rate + mu (e_{i+1} - e_i)/dx + sigma psi = sum_g' xs[g,g'] phi_g' + ext`
in every cell, direction and group. -/
def ImplicitStep (p : Problem K) (sigma : ℕ → ℕ → K) (xs : ℕ → ℕ → ℕ → K) (phi : ℕ → ℕ → K)
    (rate : ℕ → ℕ → ℕ → K) (ext bnd : Arr3 K) (psi : ℕ → ℕ → ℕ → K) : Prop :=
  ∃ e : ℕ → ℕ → ℕ → K, ∀ g < p.groups,
    (∀ n < p.angles, ∀ i < p.cells, psi i n g = (e g n i + e g n (i + 1)) / 2) ∧
    (∀ n < p.angles, ∀ i < p.cells,
      rate i n g + p.angleX n * (e g n (i + 1) - e g n i) / p.dx i + sigma (p.mm i) g * psi i n g
        = ∑ g' ∈ range p.groups, xs (p.mm i) g g' * phi i g' + sourceAt ext i n g) ∧
    SweptInflow p.cells p.angles p.angleX p.bcL p.bcR (fun n => sourceAt bnd 0 n g)
      (fun n => sourceAt bnd 1 n g) (e g)

/-- The quadrature sum of cell-averaged angular fluxes. -/
def quadrature (p : Problem K) (psi : ℕ → ℕ → ℕ → K) (i g : ℕ) : K :=
  ∑ n ∈ range p.angles, p.angleW n * psi i n g

/-- Fission data as a matrix `chi[g] nusigf[g']`. -/
def fissionMatrix : Fission K → ℕ → ℕ → ℕ → K
  | .matrix f => f
  | .vector chi nu => fun m g g' => chi m g * nu m g'

end Discrete1.Spec
