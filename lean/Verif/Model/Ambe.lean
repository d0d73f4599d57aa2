import Verif.Model.Basic
import Verif.Model.Timed
import Mathlib.Algebra.Field.Basic
import Mathlib.Algebra.Order.Field.Basic

/-!
# Model of `external1d.ambe` and `external1d.time_dependence_constant`
-/

namespace Discrete1.Ambe

variable {K : Type} [Field K] [LinearOrder K]

/-- The file `AmBe_source_050G.npz`: `count` magnitudes and the edges of their energy bins (in MeV). -/
structure Spectrum (K : Type) where
  count : ℕ
  edges : ℕ → K
  magnitude : ℕ → K

/-- What a call leaves behind: the contents of the caller's array `edges_g`, and the source (indexed by cell and
group; the angle axis has length one) or the exception (external1d.py:260-295). -/
structure Outcome (K : Type) where
  edges : ℕ → K
  result : Except PyErr (ℕ → ℕ → K)

/-- `np.max(edges_g)` of `groups + 1` entries (external1d.py:283). -/
def maxEdge (groups : ℕ) (edges : ℕ → K) : K := loop groups (fun i m => max m (edges (i + 1))) (edges 0)

/-- external1d.py:283-284: `if np.max(edges_g) > 20.0: edges_g *= 1e-6`, in place.  `micro` is `1e-6`. -/
def toMeV (micro : K) (groups : ℕ) (edges : ℕ → K) : ℕ → K :=
  if 20 < maxEdge groups edges then fun i => edges i * micro else edges

/-- external1d.py:286: `centers_g = 0.5 * (edges_g[1:] + edges_g[:-1])`. -/
def center (edges : ℕ → K) (g : ℕ) : K := 1 / 2 * (edges (g + 1) + edges g)

/-- One pass of the loop (external1d.py:288-293): groups whose centre lies in `(edges[ii], edges[ii+1]]` get the
magnitude of bin `ii`. -/
def binStep (d : Spectrum K) (locX groups : ℕ) (centers : ℕ → K) (ii : ℕ) (ext : ℕ → ℕ → K) : ℕ → ℕ → K :=
  fun i g => if i = locX ∧ g < groups ∧ d.edges ii < centers g ∧ centers g ≤ d.edges (ii + 1)
    then d.magnitude ii else ext i g

/-- `ambe(x, loc_x, edges_g)` (external1d.py:260-295) for a way of reading the data file; `loc_x` an index of
`x`, `edges_g` a float array with `groups + 1` entries. -/
def ambeWith (micro : K) (load : Except PyErr (Spectrum K)) (locX groups : ℕ) (edges : ℕ → K) : Outcome K :=
  match load with
  | .error e => ⟨edges, .error e⟩
  | .ok d =>
    let edges := toMeV micro groups edges
    ⟨edges, .ok (loop d.count (binStep d locX groups (center edges)) fun _ _ => 0)⟩

/-- `np.load(DATA_PATH + "external/AmBe_source_050G.npz")` (external1d.py:22, 281): `DATA_PATH` is a path object,
and adding a string to it raises TypeError. -/
def loadAsWritten : Except PyErr (Spectrum K) := .error .typeError

/-- `ambe` as it is written (external1d.py:260-295). -/
def ambe (micro : K) (locX groups : ℕ) (edges : ℕ → K) : Outcome K := ambeWith micro loadAsWritten locX groups edges

/-- `time_dependence_constant` (external1d.py:298-311): the same source with a leading axis of length one. -/
def timeDependenceConstant (source : Tools.Arr3 K) : Drivers.TimeArr K := ⟨1, fun _ => source⟩

end Discrete1.Ambe
