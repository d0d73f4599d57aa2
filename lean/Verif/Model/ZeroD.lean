import Verif.Model.Tools

/-!
# Model of `multi_group_0d.py` and `critical0d.py` (infinite medium)

The convergence tests `norm((new - old) / new) < tol` (multi_group_0d.py:145-149, 208-212;
critical0d.py:72-74) are parameters, so the theorems hold for every outcome of the tests.
`groups` is `flux_old.shape[0]`, `angles` is `angle_x.shape[0]`.
-/

namespace Discrete1.ZeroD

open Discrete1.Tools

variable {K : Type*} [Field K] [LinearOrder K]

/-- `xs_scatter`: two axes `(groups, groups)` or three `(groups, groups, L+1)` (multi_group_0d.py:25-83). -/
inductive Scatter0 (K : Type*)
  | iso (xs : ℕ → ℕ → K)
  | aniso (moments : ℕ) (xs : ℕ → ℕ → ℕ → K)

/-- The data that all functions of the module receive (multi_group_0d.py:25-83). -/
structure Medium (K : Type*) where
  groups : ℕ
  angles : ℕ
  angleX : ℕ → K
  angleW : ℕ → K
  xsTotal : ℕ → K
  convIn : K → K → Bool
  convOut : (ℕ → K) → (ℕ → K) → Bool

/-- External source `(n_angles, n_groups)` with possible singleton axes (multi_group_0d.py:25-83). -/
structure Source0 (K : Type*) where
  rows : ℕ
  cols : ℕ
  val : ℕ → ℕ → K

/-- One pass of `discrete_ordinates_iso` (multi_group_0d.py:196-205). -/
def sweepIso (p : Medium K) (xsTotal xsScatter off : K) (rows : ℕ) (ext : ℕ → K) (old : K) : K :=
  loop p.angles (fun nn flux =>
    flux + (xsScatter * old + ext (bidx rows nn) + off) * p.angleW nn / xsTotal) 0

/-- `discrete_ordinates_iso` (multi_group_0d.py:157-217); `count_nn = 100`. -/
def discreteOrdinatesIso (p : Medium K) (xsTotal xsScatter off : K) (rows : ℕ) (ext : ℕ → K)
    (old : K) : K :=
  iterate (sweepIso p xsTotal xsScatter off rows ext) p.convIn 99 old

/-- One group of the outer pass (multi_group_0d.py:126-142). -/
def groupIso (p : Medium K) (xs : ℕ → ℕ → K) (ext : Source0 K) (old : ℕ → K) (gg : ℕ) (flux : ℕ → K) :
    ℕ → K :=
  setAt flux gg (discreteOrdinatesIso p (p.xsTotal gg) (xs gg gg)
    (offScatter0d p.groups flux old xs gg) ext.rows (fun n => ext.val n (bidx ext.cols gg)) (old gg))

/-- One outer pass: `flux *= 0.0` and the group loop (multi_group_0d.py:124-142). -/
def outerIso (p : Medium K) (xs : ℕ → ℕ → K) (ext : Source0 K) (old : ℕ → K) : ℕ → K :=
  loop p.groups (groupIso p xs ext old) fun _ => 0

/-- `source_iteration_iso` (multi_group_0d.py:86-154); `count_gg = 100`. -/
def sourceIterationIso (p : Medium K) (xs : ℕ → ℕ → K) (ext : Source0 K) (old : ℕ → K) : ℕ → K :=
  iterate (outerIso p xs ext) p.convOut 99 old

/-- One pass of `discrete_ordinates_aniso` (multi_group_0d.py:366-380) on (flux, moments); `xsW` is
`xs_scatter_w`, `P` and `PW` the Legendre tables. -/
def sweepAniso (p : Medium K) (L : ℕ) (xsTotal : K) (xsW : ℕ → K) (off : K) (rows : ℕ) (ext : ℕ → K)
    (P PW : ℕ → ℕ → K) (s : K × (ℕ → K)) : K × (ℕ → K) :=
  loop p.angles (fun nn t =>
    let angular := (accum L (fun l => xsW l * s.2 l * P l nn) + ext (bidx rows nn) + off) / xsTotal
    (t.1 + angular * p.angleW nn, fun l => t.2 l + angular * PW l nn)) (0, fun _ => 0)

/-- `discrete_ordinates_aniso` (multi_group_0d.py:307-392): the zeroth moment starts from `flux_old`. -/
def discreteOrdinatesAniso (p : Medium K) (L : ℕ) (xsTotal : K) (xsW : ℕ → K) (off : K) (rows : ℕ)
    (ext : ℕ → K) (P PW : ℕ → ℕ → K) (old : K) : K :=
  (iterate (sweepAniso p L xsTotal xsW off rows ext P PW) (fun a b => p.convIn a.1 b.1) 99
    (old, fun l => if l = 0 then old else 0)).1

/-- One group of the outer pass (multi_group_0d.py:267-292). -/
def groupAniso (p : Medium K) (L : ℕ) (xs : ℕ → ℕ → ℕ → K) (ext : Source0 K) (P PW : ℕ → ℕ → K)
    (old : ℕ → K) (gg : ℕ) (flux : ℕ → K) : ℕ → K :=
  setAt flux gg (discreteOrdinatesAniso p L (p.xsTotal gg) (fun l => xs gg gg l * (2 * (l : K) + 1))
    (offScatter0d p.groups flux old (fun o i => xs o i 0) gg) ext.rows
    (fun n => ext.val n (bidx ext.cols gg)) P PW (old gg))

/-- `source_iteration_aniso` (multi_group_0d.py:220-304): one outer pass. -/
def outerAniso (p : Medium K) (L : ℕ) (xs : ℕ → ℕ → ℕ → K) (ext : Source0 K) (P PW : ℕ → ℕ → K)
    (old : ℕ → K) : ℕ → K :=
  loop p.groups (groupAniso p L xs ext P PW old) fun _ => 0

/-- `source_iteration_aniso` (multi_group_0d.py:220-304). -/
def sourceIterationAniso (p : Medium K) (L : ℕ) (xs : ℕ → ℕ → ℕ → K) (ext : Source0 K)
    (P PW : ℕ → ℕ → K) (old : ℕ → K) : ℕ → K :=
  iterate (outerAniso p L xs ext P PW) p.convOut 99 old

/-- `source_iteration` (multi_group_0d.py:25-83) without tables given: they are computed with
`legendre_polynomials`. -/
def sourceIteration (p : Medium K) (xs : Scatter0 K) (ext : Source0 K) (old : ℕ → K) : ℕ → K :=
  match xs with
  | .iso xs => sourceIterationIso p xs ext old
  | .aniso L xs => sourceIterationAniso p L xs ext (fun l n => legendre (p.angleX n) l)
      (fun l n => p.angleW n * legendre (p.angleX n) l) old

/-- `xs_fission` with `chi=None`, or `nusigf` together with `chi` (critical0d.py:17-80). -/
inductive Fission0 (K : Type*)
  | matrix (xs : ℕ → ℕ → K)
  | vector (chi nusigf : ℕ → K)

/-- The fission source `(1, groups)` (critical0d.py:52-55). -/
def fissionSource0 (G : ℕ) (f : Fission0 K) (flux : ℕ → K) (keff : K) : Source0 K :=
  match f with
  | .matrix xs => ⟨1, G, fun _ g => fissionMatSource0d G flux xs keff g⟩
  | .vector chi nu => ⟨1, G, fun _ g => fissionVecSource0d G flux chi nu keff g⟩

/-- The multiplication factor update (critical0d.py:63-66). -/
def updateKeff0 (G : ℕ) (f : Fission0 K) (flux old : ℕ → K) (keff : K) : K :=
  match f with
  | .matrix xs => updateKeffMat0d G flux old xs keff
  | .vector chi nu => updateKeffVec0d G flux old chi nu keff

/-- Flux and multiplication factor (critical0d.py:17-80). -/
structure K0State (K : Type*) where
  flux : ℕ → K
  keff : K

/-- One pass of `critical0d.power_iteration` (critical0d.py:51-69). -/
def powerStep0 (p : Medium K) (norm : (ℕ → K) → K) (xs : Scatter0 K) (f : Fission0 K) (s : K0State K) :
    K0State K :=
  let flux := sourceIteration p xs (fissionSource0 p.groups f s.flux s.keff) s.flux
  let keff := updateKeff0 p.groups f flux s.flux s.keff
  ⟨fun g => flux g / norm flux, keff⟩

/-- The `while` loop (critical0d.py:46-77): `count` starts at 0, is compared with `count_kk = 100`
*before* it is increased.  `fuel` bounds the recursion only: it is the number of further values of
`count` for which the comparison can still be false.  Returns the state and the number of passes. -/
def powerLoop0 (step : K0State K → K0State K) (conv : (ℕ → K) → (ℕ → K) → Bool) :
    ℕ → ℕ → K0State K → K0State K × ℕ
  | 0, count, s => (step s, count + 1)
  | fuel + 1, count, s =>
    let s' := step s
    if conv s'.flux s.flux ∨ 100 ≤ count then (s', count + 1) else powerLoop0 step conv fuel (count + 1) s'

/-- `critical0d.power_iteration` (critical0d.py:17-80); `random` is the start vector. -/
def powerIteration0 (p : Medium K) (norm : (ℕ → K) → K) (conv : (ℕ → K) → (ℕ → K) → Bool)
    (xs : Scatter0 K) (f : Fission0 K) (random : ℕ → K) : K0State K × ℕ :=
  powerLoop0 (powerStep0 p norm xs f) conv 100 0 ⟨fun g => random g / |norm random|, norm random⟩

end Discrete1.ZeroD
