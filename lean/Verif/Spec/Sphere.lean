import Mathlib.Algebra.Order.Field.Basic
import Mathlib.Algebra.BigOperators.Group.Finset.Basic
import Verif.Spec.Transport

/-!
# Specification: the one-dimensional spherical discrete-ordinates equations

`r` are the radii of the cell faces.  Nothing here refers to the model of the code.
-/

namespace Discrete1.Spec

variable {K : Type*} [Field K]

/-- Radius of face `i` of a mesh with cell widths `dx`: `dx_0 + ... + dx_{i-1}`. -/
def radius (dx : ℕ → K) (i : ℕ) : K := ∑ j ∈ Finset.range i, dx j

/-- Area of the sphere of radius `r`. -/
def sphereArea (pi r : K) : K := 4 * pi * r ^ 2

/-- Volume of the ball of radius `r`. -/
def ballVolume (pi r : K) : K := 4 / 3 * pi * r ^ 3

/-- A symmetric quadrature with positive weights, its ordinates listed in ascending order. -/
structure AscendingQuadrature [LinearOrder K] (A : ℕ) (mu w : ℕ → K) : Prop where
  sym : Symmetric A mu
  weightSym : ∀ n < A, w (A - 1 - n) = w n
  weightPos : ∀ n < A, 0 < w n
  ascending : ∀ m n, m ≤ n → n < A → mu m ≤ mu n

/-- The angular differencing coefficient at the lower edge of ordinate `n`:
`alpha_{n-1/2} = - sum_{m < n} mu_m w_m`. -/
def alpha (mu w : ℕ → K) (n : ℕ) : K := -∑ m ∈ Finset.range n, mu m * w m

/-- The cosine at the lower edge of ordinate `n` (weights normalised to one). -/
def muEdge (w : ℕ → K) (n : ℕ) : K := -1 + 2 * ∑ m ∈ Finset.range n, w m

/-- The conservation equation of one cell and one ordinate: streaming through the two faces (areas
`A1`, `A2`; edge fluxes `inner`, `outer`), angular redistribution (coefficients `aIn`, `aOut`; angular
edge fluxes `hIn`, `hOut`), collisions and source (volume `V`, cell average `c`). -/
def SphereBalance (A1 A2 V mu w aIn aOut sigma q inner outer hIn hOut c : K) : Prop :=
  mu * (A2 * outer - A1 * inner) + (A2 - A1) / w * (aOut * hOut - aIn * hIn) + sigma * V * c = V * q

/-- The complete spherical scheme of one pass over the ordinates `n < A` of a mesh of `N` cells with
inner areas `A1`, outer areas `A2` and volumes `V`: `psi n i` are the radial edge fluxes, `c n i` the
cell averages, `h n i` the flux on the lower angular edge of ordinate `n`, `e0` the edge fluxes of the
starting direction `mu = -1` (source `q0`, entering flux `b0`).  `q` is the cell source of each ordinate
and `inR` the entering flux at the outer surface. -/
structure SphereScheme [LinearOrder K] (N A : ℕ) (A1 A2 V mu w sigma dx : ℕ → K) (q : ℕ → ℕ → K)
    (q0 : ℕ → K) (b0 : K) (inR : ℕ → K) (psi c h : ℕ → ℕ → K) (e0 : ℕ → K) : Prop where
  start : CellBalance N (-1) dx sigma q0 e0
  startIn : e0 N = b0
  startHalf : ∀ i < N, h 0 i = (e0 i + e0 (i + 1)) / 2
  balance : ∀ n < A, ∀ i < N, SphereBalance (A1 i) (A2 i) (V i) (mu n) (w n) (alpha mu w n)
    (alpha mu w (n + 1)) (sigma i) (q n i) (psi n i) (psi n (i + 1)) (h n i) (2 * c n i - h n i) (c n i)
  diamond : ∀ n < A, ∀ i < N, psi n i + psi n (i + 1) = 2 * c n i
  inward : ∀ n < A, mu n < 0 → psi n N = inR n
  outward : ∀ n < A, 0 < mu n → psi n 0 = h n 0
  /-- the angular edge flux handed to the next ordinate: weighted diamond, except in the central cell -/
  angular : ∀ n < A, ∀ i < N, h (n + 1) i =
    if i = 0 then h n i else
      (c n i - (1 - (mu n - muEdge w n) / (2 * w n)) * h n i) / ((mu n - muEdge w n) / (2 * w n))

end Discrete1.Spec
