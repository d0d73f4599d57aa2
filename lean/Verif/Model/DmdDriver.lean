import Verif.Model.Buffers
import Verif.Model.Dmd
import Verif.Model.Timed

/-!
# Model of `fixed1d.dynamic_mode_decomp` (fixed1d.py:116-222)

`Model/Buffers.lean` models the warm-up and snapshot sweeps on arrays, `Model/Dmd.lean` the linear algebra
of `tools.dmd`; here both are put together and run on a problem.  The singular value decomposition
`np.linalg.svd(A, full_matrices=False)` is a parameter: nothing is assumed about the factors it returns.
-/

namespace Discrete1.Drivers

open Matrix Tools MultiGroup

variable {K : Type} [Field K] [LinearOrder K]

/-- The factors returned by `np.linalg.svd(A, full_matrices=False)` (tools.py:612) for a matrix with `n`
rows and `m + 1` columns: `q` singular values. -/
structure Svd (K : Type) (n m : ℕ) where
  q : ℕ
  U : Fin n → ℕ → K
  S : ℕ → K
  Vt : ℕ → Fin (m + 1) → K

/-- `(flux - flux_old).ravel()` (multi_group.py:942) and `flux_old.flatten()` (tools.py:669): row-major order
of a `cells × groups` array. -/
def flatten (cells groups : ℕ) (f : ℕ → ℕ → K) : Fin (cells * groups) → K :=
  fun i => f (i / groups) (i % groups)

/-- `flux.reshape(flux_old.shape)` (tools.py:671). -/
def reshape (cells groups : ℕ) (v : Fin (cells * groups) → K) : ℕ → ℕ → K := fun i g =>
  if h : i < cells ∧ g < groups then
    v ⟨i * groups + g, by
      calc i * groups + g < i * groups + groups := by omega
        _ = (i + 1) * groups := by ring
        _ ≤ cells * groups := Nat.mul_le_mul_right _ h.1⟩
  else 0

/-- `tools.dmd` (tools.py:633-671) on the snapshots of `snap` sweeps.  With `snap = 0` the allocation
`np.zeros((n_state, K - 1))` (multi_group.py:898-899) raises ValueError; with `snap = 1` the matrices have
no column and `y_plus[:, -1]` (tools.py:665) raises IndexError (an SVD routine that refuses an empty matrix
raises earlier: `svdEmpty`); `np.linalg.solve` raises LinAlgError, a ValueError, on a singular
matrix. -/
noncomputable def toolsDmd (svdEmpty : Option PyErr)
    (svd : ∀ n m : ℕ, Matrix (Fin n) (Fin (m + 1)) K → Svd K n m) (residual : K) (cells groups : ℕ)
    (fluxOld : ℕ → ℕ → K) (y : Buffers.Snapshots K) : ℕ → Except PyErr (ℕ → ℕ → K)
  | 0 => .error .valueError
  | 1 => .error (svdEmpty.getD .indexError)
  | m + 2 =>
    let yMinus : Matrix (Fin (cells * groups)) (Fin (m + 1)) K :=
      Matrix.of fun i k => flatten cells groups (y.minus k) i
    let yPlus : Matrix (Fin (cells * groups)) (Fin (m + 1)) K :=
      Matrix.of fun i k => flatten cells groups (y.plus k) i
    let d := svd _ m yMinus
    let r := Dmd.matSize residual (m + 2) d.q d.S
    let aTilde := Dmd.aTilde r (Matrix.of fun i k => d.U i k)
      (fun k => 1 / (Dmd.spos residual d.q d.S).getD k 0) (Matrix.of fun k j => d.Vt k j) yPlus
    if (1 - aTilde).det = 0 then .error .valueError
    else .ok (reshape cells groups
      (Dmd.dmd residual d.q d.U d.S d.Vt yPlus (flatten cells groups fluxOld)))

/-- The body of the group loop used by the sweeps of `mg.dynamic_mode_decomp` (multi_group.py:1029-1036,
826-859, 903-937): the anisotropic one, with Legendre tables computed from the quadrature, when the
scattering data have four axes. -/
def dmdStep (p : Problem K) (xsTotal : ℕ → ℕ → K) (xs : Scatter K) (external boundary : Arr3 K) :
    (ℕ → ℕ → K) → ℕ → (ℕ → ℕ → K) → Except PyErr (ℕ → ℕ → K) :=
  match xs with
  | .iso xs => groupStepIso p xsTotal xs external boundary
  | .aniso L xs => groupStepAniso p L xsTotal xs external boundary
      (fun l nn => legendre (p.angleX nn) l) (fun l nn => p.angleW nn * legendre (p.angleX nn) l)

/-- `multi_group.dynamic_mode_decomp` (multi_group.py:953-1087) on a problem. -/
noncomputable def dynamicModeDecomp (svdEmpty : Option PyErr)
    (svd : ∀ n m : ℕ, Matrix (Fin n) (Fin (m + 1)) K → Svd K n m) (residual : K) (p : Problem K)
    (xsTotal : ℕ → ℕ → K) (xs : Scatter K) (external boundary : Arr3 K) (R snap : ℕ)
    (fluxOld : ℕ → ℕ → K) : Except PyErr (ℕ → ℕ → K) :=
  match Buffers.dynamicModeDecomp p.groups (dmdStep p xsTotal xs external boundary) p.convOut R snap
      (fun _ => fluxOld) with
  | .error e => .error e
  | .ok (h, .converged f) => .ok (h f)
  | .ok (h, .extrapolate f y) => toolsDmd svdEmpty svd residual p.cells p.groups (h f) y snap

/-- `fixed1d.dynamic_mode_decomp` (fixed1d.py:116-222). -/
noncomputable def fixedDynamicModeDecomp (svdEmpty : Option PyErr)
    (svd : ∀ n m : ℕ, Matrix (Fin n) (Fin (m + 1)) K → Svd K n m) (residual : K) (p : Problem K)
    (xsTotal : ℕ → ℕ → K) (scatter : Scatter K) (fission : Fission K) (external boundary : Arr3 K)
    (angular edges : Bool) (R snap : ℕ) : Except PyErr (FixedOut K) :=
  let xsMatrix := transferMatrix scatter fission
  match dynamicModeDecomp svdEmpty svd residual p xsTotal xsMatrix external boundary R snap
      (fun _ _ => 0) with
  | .error e => .error e
  | .ok flux =>
    if angular = false ∧ edges = false then .ok (.scalar flux)
    else knownSourceCalculation p flux xsTotal xsMatrix external boundary angular edges

end Discrete1.Drivers
