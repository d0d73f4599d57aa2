import Verif.Model.Basic
import Mathlib.LinearAlgebra.Matrix.NonsingularInverse

/-!
# Model of `tools.dmd` and `tools._svd_dmd` (tools.py:593-671)

The SVD factors `U`, `S`, `Vt` returned by `np.linalg.svd(A, full_matrices=False)` are parameters
(`q` singular values).  State vectors are indexed by `Fin n` (the flattened flux), the `K - 1` snapshot
columns by `Fin (m + 1)` with `K = m + 2`.
-/

namespace Discrete1.Dmd

open Matrix

variable {K : Type*} [Field K] [LinearOrder K]

/-- `energy[i] = np.cumsum(S**2)[i] / np.sum(S**2)` (tools.py:616). -/
def energy (q : ℕ) (S : ℕ → K) (i : ℕ) : K :=
  accum (i + 1) (fun j => S j ^ 2) / accum q (fun j => S j ^ 2)

/-- `mask = (1 - energy) > residual` (tools.py:617); all singular values zero make `energy` NaN, and the
comparison false. -/
def mask (residual : K) (q : ℕ) (S : ℕ → K) (i : ℕ) : Bool :=
  decide (accum q (fun j => S j ^ 2) ≠ 0) && decide (residual < 1 - energy q S i)

/-- `spos = S[mask] if mask.any() else S[S > 0]` (tools.py:618). -/
def spos (residual : K) (q : ℕ) (S : ℕ → K) : List K :=
  if (List.range q).any (mask residual q S) then
    ((List.range q).filter (mask residual q S)).map S
  else ((List.range q).filter fun i => decide (0 < S i)).map S

/-- `mat_size = min(K, len(spos))` (tools.py:621). -/
def matSize (residual : K) (kMax q : ℕ) (S : ℕ → K) : ℕ := min kMax (spos residual q S).length

/-- `Atilde = U.T @ y_plus @ Vt.T @ S_inv` (tools.py:662). -/
def aTilde {n m : ℕ} (r : ℕ) (U : Matrix (Fin n) (Fin r) K) (sInv : Fin r → K)
    (Vt : Matrix (Fin r) (Fin (m + 1)) K) (yPlus : Matrix (Fin n) (Fin (m + 1)) K) :
    Matrix (Fin r) (Fin r) K := Uᵀ * yPlus * Vtᵀ * diagonal sInv

/-- The body of `dmd` (tools.py:658-669) after the SVD has been truncated to `r` columns:
`flux_old - y_plus[:, K-2] + U (I - Atilde)^{-1} U^T y_plus[:, -1]` with
`Atilde = U^T y_plus Vt^T S_inv`. `np.linalg.solve` is the inverse (it raises for singular matrices:
see `Drivers.toolsDmd`). -/
noncomputable def dmdCore {n m : ℕ} (r : ℕ) (U : Matrix (Fin n) (Fin r) K) (sInv : Fin r → K)
    (Vt : Matrix (Fin r) (Fin (m + 1)) K) (yPlus : Matrix (Fin n) (Fin (m + 1)) K)
    (fluxOld : Fin n → K) : Fin n → K :=
  let rhs := Uᵀ *ᵥ (fun i => yPlus i (Fin.last m))
  let delta := (1 - aTilde r U sInv Vt yPlus)⁻¹ *ᵥ rhs
  fun i => fluxOld i - yPlus i ⟨m, by omega⟩ + (U *ᵥ delta) i

/-- `dmd(flux_old, y_minus, y_plus, K)` (tools.py:633-671) with `U`, `S`, `Vt` the SVD of `y_minus`. -/
noncomputable def dmd {n m : ℕ} (residual : K) (q : ℕ) (U : Fin n → ℕ → K) (S : ℕ → K) (Vt : ℕ → Fin (m + 1) → K)
    (yPlus : Matrix (Fin n) (Fin (m + 1)) K) (fluxOld : Fin n → K) : Fin n → K :=
  let r := matSize residual (m + 2) q S
  dmdCore r (Matrix.of fun i k => U i k) (fun k => 1 / (spos residual q S).getD k 0)
    (Matrix.of fun k j => Vt k j) yPlus
    fluxOld

end Discrete1.Dmd
