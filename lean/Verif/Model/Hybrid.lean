import Verif.Model.Basic
import Mathlib.Algebra.BigOperators.Group.Finset.Basic
import Mathlib.Order.Interval.Finset.Nat
import Mathlib.Data.Fintype.Basic

/-!
# Model of `discrete1/utils/hybrid.py`

Index arrays `edges_gidx` of shape `(C + 1,)` are functions `e : ℕ → ℕ` used on `0..C`.
`np.sum(a[gg1:gg2])` is the exact sum over `Finset.Ico gg1 gg2`.
-/

namespace Discrete1.Hybrid

open Finset

variable {K : Type*} [Field K]

/-- `np.linspace(0, coarse - 1, r, dtype=np.int32)` (hybrid.py:29) in exact arithmetic: entry `k` is
`floor(k * (coarse-1) / (r-1))`; for `r = 1` the only entry is `0`.
Simplification: float rounding of the step is ignored (see `energyCoarseIndexWith`, which takes
the positions as a parameter and is proved correct for every strictly increasing choice). -/
def linspaceInt (coarse r : ℕ) (k : ℕ) : ℕ :=
  if r = 1 then 0 else k * (coarse - 1) / (r - 1)

/-- The array `index` after hybrid.py:28-29: `np.ones(coarse) * int(fine / coarse)` and then
`index[positions] += 1`, where a numpy fancy-index `+=` adds one *once* per distinct index. -/
def widthsWith (pos : ℕ → ℕ) (fine coarse : ℕ) (i : ℕ) : ℕ :=
  fine / coarse + if (List.range (fine % coarse)).any (fun k => pos k == i) then 1 else 0

/-- `energy_coarse_index` (hybrid.py:14-31) with the linspace positions as a parameter:
`coarse = 0` divides by zero (line 28); the assert on line 30; the cumulative sum of line 31
(`np.insert(index, 0, 0)` puts the leading zero). -/
def energyCoarseIndexWith (pos : ℕ → ℕ) (fine coarse : ℕ) : Except PyErr (ℕ → ℕ) :=
  if coarse = 0 then .error .zeroDivision
  else if accum coarse (widthsWith pos fine coarse) = fine then
    .ok fun k => accum k (widthsWith pos fine coarse)
  else .error .assertion

/-- `energy_coarse_index` (hybrid.py:14-31). -/
def energyCoarseIndex (fine coarse : ℕ) : Except PyErr (ℕ → ℕ) :=
  energyCoarseIndexWith (linspaceInt coarse (fine % coarse)) fine coarse

/-- `np.diff(edges)` (hybrid.py:101). -/
def diff (edges : ℕ → K) (g : ℕ) : K := edges (g + 1) - edges g

/-- `np.diff(edges[edges_gidx])` (hybrid.py:102, 139, 181, 266, 420). -/
def diffIdx (edges : ℕ → K) (e : ℕ → ℕ) (c : ℕ) : K := edges (e (c + 1)) - edges (e c)

/-- `coarsen_external` (hybrid.py:73-110) for one row `external[..., :]` of length `G`;
`weight` selects the energy-width weighting.  All leading axes are handled independently by the
numpy code, so one row is modelled. A length-one group axis is returned unchanged (line 95-96). -/
def coarsenExternal (G : ℕ) (external : ℕ → K) (edges : ℕ → K) (e : ℕ → ℕ) (weight : Bool) :
    ℕ → K :=
  if G = 1 then external
  else
    let fine : ℕ → K := if weight then fun g => external g * diff edges g else external
    let coarse : ℕ → K := fun c => ∑ g ∈ Ico (e c) (e (c + 1)), fine g
    if weight then fun c => coarse c / diffIdx edges e c else coarse

/-- `_xs_vector_coarsen` (hybrid.py:113-150). -/
def xsVectorCoarsen (vector : ℕ → ℕ → K) (edges : ℕ → K) (e : ℕ → ℕ) (mat c : ℕ) : K :=
  (∑ g ∈ Ico (e c) (e (c + 1)), vector mat g * diff edges g) / diffIdx edges e c

/-- `_xs_matrix_coarsen` (hybrid.py:153-193).  `fine = matrix * delta_fine[None, :]` multiplies the
last axis (incoming group); `coarse /= delta_coarse[None, :]` divides the last axis. -/
def xsMatrixCoarsen (matrix : Option (ℕ → ℕ → ℕ → K)) (edges : ℕ → K) (e : ℕ → ℕ) :
    Option (ℕ → ℕ → ℕ → K) :=
  matrix.map fun m mat a b =>
    (∑ og ∈ Ico (e a) (e (a + 1)), ∑ ig ∈ Ico (e b) (e (b + 1)), m mat og ig * diff edges ig)
      / diffIdx edges e b

/-- `coarsen_materials` (hybrid.py:34-70). -/
def coarsenMaterials (total : ℕ → ℕ → K) (scatter fission : Option (ℕ → ℕ → ℕ → K))
    (edges : ℕ → K) (e : ℕ → ℕ) :
    (ℕ → ℕ → K) × Option (ℕ → ℕ → ℕ → K) × Option (ℕ → ℕ → ℕ → K) :=
  (xsVectorCoarsen total edges e, xsMatrixCoarsen scatter edges e, xsMatrixCoarsen fission edges e)

/-- `coarsen_velocity` (hybrid.py:196-218): `np.mean` of each slice. -/
def coarsenVelocity (vector : ℕ → K) (e : ℕ → ℕ) (c : ℕ) : K :=
  (∑ g ∈ Ico (e c) (e (c + 1)), vector g) / ((e (c + 1) - e c : ℕ) : K)

/-- `collided_index` (hybrid.py:272-301): successive slice assignments `coarse_idx[e_c:e_{c+1}] = c`. -/
def collidedIndex (C : ℕ) (e : ℕ → ℕ) : ℕ → ℕ :=
  loop C (fun count idx g => if e count ≤ g ∧ g < e (count + 1) then count else idx g) (fun _ => 0)

/-- `uncollided_index` (hybrid.py:304-335). -/
def uncollidedIndex (C : ℕ) (e : ℕ → ℕ) : ℕ → ℕ :=
  loop C (fun count idx => setAt idx (count + 1) (e (count + 1))) (fun _ => 0)

/-- `hybrid_factor` (hybrid.py:338-375): `factor = delta_fine.copy()`, then for each coarse group and
each fine group `ii` in `range(start, stop)`: `factor[ii] /= delta_coarse[count]`. -/
def hybridFactor (C : ℕ) (deltaFine deltaCoarse : ℕ → K) (e : ℕ → ℕ) : ℕ → K :=
  loop C (fun count factor =>
    loop (e (count + 1) - e count)
      (fun k factor => setAt factor (e count + k) (factor (e count + k) / deltaCoarse count)) factor)
    deltaFine

/-- `indexing` (hybrid.py:226-269): `(fine_idx, coarse_idx, factor)`; `gidxF` is
`edges_gidx_fine`, `gidxC` is `edges_gidx_coarse` (with `C + 1` entries). -/
def indexing (C : ℕ) (edges : ℕ → K) (gidxF gidxC : ℕ → ℕ) : (ℕ → ℕ) × (ℕ → ℕ) × (ℕ → K) :=
  let deltaFine := diff (fun g => edges (gidxF g))
  let deltaCoarse := diffIdx (fun g => edges (gidxF g)) gidxC
  (uncollidedIndex C gidxC, collidedIndex C gidxC, hybridFactor C deltaFine deltaCoarse gidxC)

end Discrete1.Hybrid
