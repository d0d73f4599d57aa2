import Mathlib.Algebra.Order.Field.Basic
import Mathlib.Algebra.Order.AbsoluteValue.Basic
import Mathlib.Algebra.BigOperators.Group.Finset.Basic

/-!
# Specification: the discrete-ordinates, diamond-difference slab equations

`psi i` is the angular flux at cell edge `i` (`i = 0..N`), cell `i` lies between edges `i` and `i+1`.
Nothing here refers to the model of the code.
-/

namespace Discrete1.Spec

variable {K : Type*} [Field K]

/-- The mesh and the cross sections are physical: positive cell widths, non-negative totals. -/
def Physical [LinearOrder K] (N : ℕ) (dx sigma : ℕ → K) : Prop := ∀ i < N, 0 < dx i ∧ 0 ≤ sigma i

/-- One direction: `mu (psi_{i+1} - psi_i)/dx_i + sigma_i (psi_i + psi_{i+1})/2 = q_i` in every cell. -/
def CellBalance (N : ℕ) (mu : K) (dx sigma q psi : ℕ → K) : Prop :=
  ∀ i < N, mu * (psi (i + 1) - psi i) / dx i + sigma i * ((psi i + psi (i + 1)) / 2) = q i

/-- The value of `psi` at the face through which particles of direction `mu` enter. -/
def inflow [LinearOrder K] (N : ℕ) (mu : K) (psi : ℕ → K) : K := if 0 < mu then psi 0 else psi N

/-- The value of `psi` at the face through which particles of direction `mu` leave. -/
def outflow [LinearOrder K] (N : ℕ) (mu : K) (psi : ℕ → K) : K := if 0 < mu then psi N else psi 0

/-- Is the face through which direction `mu` leaves a reflecting one? -/
def leavesReflecting [LinearOrder K] (reflL reflR : Bool) (mu : K) : Prop :=
  (0 < mu ∧ reflR = true) ∨ (mu < 0 ∧ reflL = true)

instance [LinearOrder K] (reflL reflR : Bool) (mu : K) : Decidable (leavesReflecting reflL reflR mu) :=
  inferInstanceAs (Decidable (_ ∨ _))

/-- Every direction `n < A` satisfies the cell equations with source `q n`. -/
def AllBalanced (N A : ℕ) (mu : ℕ → K) (dx sigma : ℕ → K) (q psi : ℕ → ℕ → K) : Prop :=
  ∀ n < A, CellBalance N (mu n) dx sigma (q n) (psi n)

/-- Boundary condition of one sweep in the order `0, 1, ..., A-1`: direction `n` enters with its
boundary source plus, if the mirror direction `A-1-n` was swept *before* `n` and left through a
reflecting face, the flux with which the mirror direction left. -/
def SweptInflow [LinearOrder K] (N A : ℕ) (mu : ℕ → K) (reflL reflR : Bool) (bL bR : ℕ → K)
    (psi : ℕ → ℕ → K) : Prop :=
  ∀ n < A, inflow N (mu n) (psi n) = (if 0 < mu n then bL n else bR n) +
    (if A - 1 - n < n ∧ leavesReflecting reflL reflR (mu (A - 1 - n)) then
      outflow N (mu (A - 1 - n)) (psi (A - 1 - n)) else 0)

/-- The genuine boundary conditions: boundary source plus full reflection at reflecting faces. -/
def BoundaryConditions [LinearOrder K] (N A : ℕ) (mu : ℕ → K) (reflL reflR : Bool) (bL bR : ℕ → K)
    (psi : ℕ → ℕ → K) : Prop :=
  ∀ n < A,
    (0 < mu n → psi n 0 = bL n + if reflL = true then psi (A - 1 - n) 0 else 0) ∧
    (mu n < 0 → psi n N = bR n + if reflR = true then psi (A - 1 - n) N else 0)

/-- A symmetric quadrature: `mu (A-1-n) = - mu n`, no zero ordinate. -/
structure Symmetric [LinearOrder K] (A : ℕ) (mu : ℕ → K) : Prop where
  mirror : ∀ n < A, mu (A - 1 - n) = -mu n
  nonzero : ∀ n < A, mu n ≠ 0

/-- The mesh is fine enough for direction `mu`: `sigma_i dx_i ≤ 2 |mu|` in every cell. -/
def FineFor [LinearOrder K] (N : ℕ) (mu : K) (dx sigma : ℕ → K) : Prop :=
  ∀ i < N, sigma i * dx i ≤ 2 * |mu|

/-- Cell of the half slab that is seen from cell `i` of the mirrored full slab of `2 N` cells. -/
def mirrorCell (N i : ℕ) : ℕ := if i < N then N - 1 - i else i - N

/-- Direction seen from cell (or edge) `i` of the mirrored full slab. -/
def mirrorDir (N A n i : ℕ) : ℕ := if i < N then A - 1 - n else n

/-- Edge of the half slab seen from edge `i` of the full slab. -/
def mirrorEdge (N i : ℕ) : ℕ := if i < N then N - i else i - N

/-- Quadrature sum of cell averages. -/
def scalarCenter (A : ℕ) (w : ℕ → K) (psi : ℕ → ℕ → K) (i : ℕ) : K :=
  ∑ n ∈ Finset.range A, w n * ((psi n i + psi n (i + 1)) / 2)

/-- Quadrature sum of edge values. -/
def scalarEdge (A : ℕ) (w : ℕ → K) (psi : ℕ → ℕ → K) (i : ℕ) : K :=
  ∑ n ∈ Finset.range A, w n * psi n i

end Discrete1.Spec
