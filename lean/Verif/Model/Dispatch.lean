import Verif.Model.MultiGroup

/-!
# Model of `spatial_sweep.discrete_ordinates` (spatial_sweep.py:34-170)

The function is a public entry point; it forwards its arguments *positionally*.  The arguments that are
passed in a wrong position have different Python types, so the model keeps them as dynamically typed
values for that call.
-/

namespace Discrete1.Dispatch

open Discrete1.Tools

variable {K : Type*} [Field K] [LinearOrder K]

/-- A Python value of one of the last four arguments: the flags `bc_x` (a sequence of two integers), the
integer `edges`, or a Legendre table `(L+1, angles)` (spatial_sweep.py:34-170). -/
inductive PyVal (K : Type*)
  | flags (left right : Bool)
  | int (one : Bool)
  | table (f : ℕ → ℕ → K)

/-- Number of axes `np.asarray` sees (spatial_sweep.py:34-170). -/
def PyVal.ndim : PyVal K → ℕ
  | .flags _ _ => 1
  | .int _ => 0
  | .table _ => 2

/-- `slab_anisotropic_sn` (spatial_sweep.py:506-637) as called from Python: parameters in the order of
its signature (lines 517-521: `bc_x, edges, P, P_weights`).  The first statement of the first pass
(line 584) is `np.einsum("xl,xl,ln->xn", ..., P)`, which raises ValueError unless `P` has two axes.
Other ill-typed combinations do not occur in `discrete_ordinates`; they are given TypeError. -/
def slabAnisotropicEntry (cells angles moments : ℕ) (conv : (ℕ → K) → (ℕ → K) → Bool)
    (xsTotal : ℕ → K) (xsW : ℕ → ℕ → K) (off : ℕ → K) (external boundary : Arr2 K) (mm : ℕ → ℕ)
    (dx angleX angleW : ℕ → K) (fluxOld : ℕ → K) (bcX edges P PW : PyVal K) : Except PyErr (ℕ → K) :=
  if P.ndim ≠ 2 then .error .valueError
  else match bcX, edges, P, PW with
    | .flags l r, .int e, .table P, .table PW =>
      Slab.anisotropicSn cells angles moments conv xsTotal xsW off external boundary mm dx angleX angleW
        l r e P PW fluxOld
    | _, _, _, _ => .error .typeError

/-- `xs_scatter` of `discrete_ordinates`: one axis (by material) or two axes `(cells_x, L+1)`
(spatial_sweep.py:95). -/
inductive GroupScatter (K : Type*)
  | iso (xs : ℕ → K)
  | aniso (moments : ℕ) (xs : ℕ → ℕ → K)

/-- `discrete_ordinates` (spatial_sweep.py:34-170).  `none` is Python's `None`, returned for an unknown
geometry.  The slab anisotropic call (lines 117-133) passes `P, P_weights, bc_x, edges`. -/
def discreteOrdinates (cells angles : ℕ) (conv : (ℕ → K) → (ℕ → K) → Bool) (pi : K)
    (fluxOld xsTotal : ℕ → K) (xsScatter : GroupScatter K) (off : ℕ → K) (external boundary : Arr2 K)
    (mm : ℕ → ℕ) (dx angleX angleW : ℕ → K) (bcL bcR : Bool) (geometry : ℕ) (edges : Bool)
    (P PW : ℕ → ℕ → K) : Except PyErr (Option (ℕ → K)) :=
  match geometry, xsScatter with
  | 1, .iso xs => (Slab.isotropicSn cells angles conv xsTotal xs off external boundary mm dx angleX angleW
      bcL bcR edges fluxOld).map some
  | 1, .aniso L xs => (slabAnisotropicEntry cells angles L conv xsTotal
      (fun ii l => xs ii l * (2 * (l : K) + 1)) off external boundary mm dx angleX angleW fluxOld
      (.table P) (.table PW) (.flags bcL bcR) (.int edges)).map some
  | 2, .iso xs => (Sphere.isotropicSn cells angles conv pi xsTotal xs off external boundary mm dx angleX
      angleW edges fluxOld).map some
  | 2, .aniso L xs => (Sphere.anisotropicSn cells angles L conv pi xsTotal (fun ii => xs ii 0)
      (fun ii l => xs ii l * (2 * (l : K) + 1)) off external boundary mm dx angleX angleW edges P PW
      fluxOld).map some
  | _, _ => .ok none

end Discrete1.Dispatch
