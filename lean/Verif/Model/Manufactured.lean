import Verif.Model.Basic
import Mathlib.Analysis.SpecialFunctions.Trigonometric.Basic
import Mathlib.Analysis.SpecialFunctions.Pow.Real
import Mathlib.Analysis.Real.Sqrt

/-!
# Manufactured solutions, their sources and boundaries, and the accuracy utilities

Models `utils/manufactured.py`, the manufactured cases of `external1d.py` and `boundary1d.py`, and
`external1d.reeds`.  Arrays `flux[i, n]` are functions of the cell and ordinate indices; the loops over
ordinates write one column each and no column twice, so the array is given column by column.
The trailing length-one group axis is omitted.  Floating-point numbers are real numbers.
-/

set_option linter.unusedSectionVars false

namespace Discrete1.Manufactured

open Discrete1 Real

/-! ## Solutions (`utils/manufactured.py:10-78`) -/

/-- `solution_ss_01` (utils/manufactured.py:10-18). -/
noncomputable def solSs01 (x mu : ℕ → ℝ) (i n : ℕ) : ℝ :=
  if mu n > 0 then 1 else 1 - exp ((1 - x i) / mu n)

/-- `solution_ss_02` (utils/manufactured.py:21-29). -/
noncomputable def solSs02 (x mu : ℕ → ℝ) (i n : ℕ) : ℝ :=
  if mu n > 0 then 0.5 + 0.5 * exp (-x i / mu n) else 0.5 - 0.5 * exp ((1 - x i) / mu n)

/-- `solution_ss_03` (utils/manufactured.py:32-37). -/
noncomputable def solSs03 (x mu : ℕ → ℝ) (i n : ℕ) : ℝ :=
  0.5 + 0.25 * x i ^ 2 * exp (mu n)

/-- A masked column assignment `flux[mask, n] = values[mask]` (utils/manufactured.py:45-46). -/
def masked {α : Type} (mask : ℕ → Prop) [DecidablePred mask] (values old : ℕ → α) (i : ℕ) : α :=
  if mask i then values i else old i

open Classical in
/-- `solution_ss_04` (utils/manufactured.py:40-47). -/
noncomputable def solSs04 (x _mu : ℕ → ℝ) (i _n : ℕ) : ℝ :=
  let length_x : ℝ := 2
  let flux : ℕ → ℝ := fun _ => 0
  let flux := masked (fun i => x i ≤ 1) (fun i => -2 * x i ^ 2 + 2 * length_x * x i) flux
  let flux := masked (fun i => x i > 1)
    (fun i => 0.25 * x i - 0.125 * length_x + 0.5 * length_x ^ 2) flux
  flux i

open Classical in
/-- `solution_ss_05` (utils/manufactured.py:50-60). -/
noncomputable def solSs05 (x mu : ℕ → ℝ) (i n : ℕ) : ℝ :=
  let length_x : ℝ := 2
  let flux : ℕ → ℝ := fun _ => 0
  let flux := masked (fun i => x i ≤ 1)
    (fun i => -2 * exp (mu n) * x i ^ 2 + 2 * length_x ^ 2 * x i) flux
  let flux := masked (fun i => x i > 1)
    (fun i => length_x * exp (mu n) * x i + length_x ^ 2 * (length_x - exp (mu n))) flux
  flux i

/-- `solution_td_01` (utils/manufactured.py:62-68); `t` are the time edges. -/
noncomputable def solTd01 (x _mu t : ℕ → ℝ) (c i _n : ℕ) : ℝ :=
  (-x i) * (x i - 2) * sin (x i - 0.1 * t c) + 2

/-- `solution_td_02` (utils/manufactured.py:71-77). -/
noncomputable def solTd02 (x mu t : ℕ → ℝ) (c i n : ℕ) : ℝ :=
  1 + sin (x i - 0.5 * t c) + cos (mu n)

/-! ## Sources (`external1d.py:25-215`) -/

/-- `external1d.manufactured_ss_03` (external1d.py:25-60). -/
noncomputable def extSs03 (x mu : ℕ → ℝ) (i n : ℕ) : ℝ :=
  let const1 : ℝ := 0.5
  let const2 : ℝ := 0.25
  const2 * mu n * exp (mu n) * 2 * x i + const1 + const2 * x i ^ 2 * exp (mu n)
    - 0.9 / 2 * (2 * const1 + const2 * x i ^ 2 * (exp 1 - exp (-1)))

/-- `_quasi` of case 04 (external1d.py:84-92). -/
noncomputable def quasi04 (x mu : ℝ) : ℝ :=
  let length_x : ℝ := 2
  let c : ℝ := 0.3
  2 * length_x * mu - 4 * x * mu - 2 * x ^ 2 + 2 * length_x * x - c * (-2 * x ^ 2 + 2 * length_x * x)

/-- `_scatter` of case 04 (external1d.py:94-97). -/
noncomputable def scatter04 (x mu : ℝ) : ℝ :=
  let length_x : ℝ := 2
  let c : ℝ := 0.9
  let const : ℝ := -0.125 * length_x + 0.5 * length_x ^ 2
  0.25 * (mu + x) + const - c * (0.25 * x + const)

open Classical in
/-- `external1d.manufactured_ss_04` (external1d.py:63-105): both masks are strict. -/
noncomputable def extSs04 (x mu : ℕ → ℝ) (i n : ℕ) : ℝ :=
  let length_x : ℝ := 2
  let ext : ℕ → ℝ := fun _ => 0
  let ext := masked (fun i => x i < 0.5 * length_x) (fun i => quasi04 (x i) (mu n)) ext
  let ext := masked (fun i => x i > 0.5 * length_x) (fun i => scatter04 (x i) (mu n)) ext
  ext i

/-- `_quasi` of case 05 (external1d.py:128-135). -/
noncomputable def quasi05 (x mu : ℝ) : ℝ :=
  let length_x : ℝ := 2
  let c : ℝ := 0.3
  mu * (2 * length_x ^ 2 - 4 * exp mu * x) - 2 * exp mu * x ^ 2 + 2 * length_x ^ 2 * x
    - c / 2 * (-2 * x ^ 2 * (exp 1 - exp (-1)) + 4 * length_x ^ 2 * x)

/-- `_scatter` of case 05 (external1d.py:137-150). -/
noncomputable def scatter05 (x mu : ℝ) : ℝ :=
  let length_x : ℝ := 2
  let c : ℝ := 0.9
  let const : ℝ := length_x ^ 3 - length_x ^ 2 * exp mu
  length_x * mu * exp mu + length_x * x * exp mu + const
    - c / 2 * (2 * length_x ^ 3 + (exp 1 - exp (-1)) * (x * length_x - length_x ^ 2))

open Classical in
/-- `external1d.manufactured_ss_05` (external1d.py:108-158). -/
noncomputable def extSs05 (x mu : ℕ → ℝ) (i n : ℕ) : ℝ :=
  let length_x : ℝ := 2
  let ext : ℕ → ℝ := fun _ => 0
  let ext := masked (fun i => x i < 0.5 * length_x) (fun i => quasi05 (x i) (mu n)) ext
  let ext := masked (fun i => x i > 0.5 * length_x) (fun i => scatter05 (x i) (mu n)) ext
  ext i

/-- `external1d.manufactured_td_01` (external1d.py:161-186). -/
noncomputable def extTd01 (x mu t : ℕ → ℝ) (c i n : ℕ) : ℝ :=
  2 + x i * (-0.2 - x i * (-0.1 + mu n) + 2 * mu n) * cos (0.1 * t c - x i)
    + ((-2 + x i) * x i + 2 * (x i - 1) * mu n) * sin (0.1 * t c - x i)

/-- `external1d.manufactured_td_02` (external1d.py:189-215). -/
noncomputable def extTd02 (x mu t : ℕ → ℝ) (c i n : ℕ) : ℝ :=
  1 + (mu n - 0.5) * cos (0.5 * t c - x i) + cos (mu n) - sin (0.5 * t c - x i)

/-! ## Boundaries (`boundary1d.py:23-107`); side 0 is the left edge -/

/-- `boundary1d.manufactured_ss_03` (boundary1d.py:23-43). -/
noncomputable def bndSs03 (mu : ℕ → ℝ) (side n : ℕ) : ℝ :=
  if side = 0 then 0.5 else 0.5 + 0.25 * exp (mu n)

/-- `boundary1d.manufactured_ss_04` (boundary1d.py:46-60); one value for all ordinates. -/
noncomputable def bndSs04 (side : ℕ) : ℝ :=
  let length_x : ℝ := 2
  if side = 1 then 0.5 * length_x ^ 2 + 0.125 * length_x else 0

/-- `boundary1d.manufactured_ss_05` (boundary1d.py:63-77); one value for all ordinates. -/
noncomputable def bndSs05 (side : ℕ) : ℝ :=
  let length_x : ℝ := 2
  if side = 1 then length_x ^ 3 else 0

/-- `boundary1d.manufactured_td_02` (boundary1d.py:80-107). -/
noncomputable def bndTd02 (mu t : ℕ → ℝ) (c side n : ℕ) : ℝ :=
  let length_x : ℝ := π
  if side = 0 then 1 + sin (0 - 0.5 * t c) + cos (mu n)
  else 1 + sin (length_x - 0.5 * t c) + cos (mu n)

/-! ## Accuracy utilities (`utils/manufactured.py:83-163`) -/

/-- A numpy array: its shape and its entries in row-major order (utils/manufactured.py:83-131). -/
structure Arr where
  shape : List ℕ
  data : List ℝ

/-- `approx - reference` for equal shapes (utils/manufactured.py:105). -/
noncomputable def Arr.sub (a b : Arr) : List ℝ := List.zipWith (· - ·) a.data b.data

/-- `np.linalg.norm` without `ord`: the 2-norm of the flattened array, for every number of
dimensions (utils/manufactured.py:105). -/
noncomputable def norm2 (l : List ℝ) : ℝ := √((l.map fun v => v ^ 2).sum)

/-- `cells ** (-0.5)` on a Python integer; zero raises `ZeroDivisionError`
(utils/manufactured.py:102-104). -/
noncomputable def rootInv (cells : ℕ) : Except PyErr ℝ :=
  if cells = 0 then .error .zeroDivision else .ok ((cells : ℝ) ^ (-0.5 : ℝ))

/-- `spatial_error` (utils/manufactured.py:83-105).  `ndims` is a Python int. -/
noncomputable def spatialError (approx reference : Arr) (ndims : ℤ) : Except PyErr ℝ :=
  if approx.shape ≠ reference.shape then .error .assertion
  else if ndims = 1 then
    match approx.shape with
    | [] => .error .indexError
    | s0 :: _ =>
      match rootInv s0 with
      | .error e => .error e
      | .ok normalized => .ok (normalized * norm2 (approx.sub reference))
  else if ndims = 2 then
    match approx.shape with
    | s0 :: s1 :: _ =>
      match rootInv (s0 * s1) with
      | .error e => .error e
      | .ok normalized => .ok (normalized * norm2 (approx.sub reference))
    | _ => .error .indexError
  else .error .unboundLocal

/-- `order_accuracy` (utils/manufactured.py:108-131). -/
noncomputable def orderAccuracy (error1 error2 ratio : ℝ) : ℝ :=
  log (error1 / error2) / log ratio

section Wynn

variable {K : Type} [Field K] [LinearOrder K]

/-- `error[i, j] = v` (utils/manufactured.py:134-163). -/
def set2 (e : ℕ → ℕ → K) (i j : ℕ) (v : K) : ℕ → ℕ → K := setAt e i (setAt (e i) j v)

/-- `error[ii, 1] = lst[ii - 1]` with `ii = k + 1` (utils/manufactured.py:153-154). -/
def wynnFill (lst : List K) (k : ℕ) (e : ℕ → ℕ → K) : Except PyErr (ℕ → ℕ → K) :=
  match lst[k]? with
  | none => .error .indexError
  | some v => .ok (set2 e (k + 1) 1 v)

/-- The body of the inner loop with `ii = i + 3`, `jj = j + 3` (utils/manufactured.py:157-162). -/
def wynnCell (i j : ℕ) (e : ℕ → ℕ → K) : ℕ → ℕ → K :=
  if e (i + 2) (j + 1) - e (i + 1) (j + 1) = 0 then set2 e (i + 2) (j + 2) (e (i + 1) j)
  else set2 e (i + 2) (j + 2) (e (i + 1) j + 1 / (e (i + 2) (j + 1) - e (i + 1) (j + 1)))

/-- `for jj in range(3, ii + 1)` (utils/manufactured.py:155-162). -/
def wynnRow (i : ℕ) (e : ℕ → ℕ → K) : ℕ → ℕ → K := loop (i + 1) (wynnCell i) e

/-- `wynn_epsilon` (utils/manufactured.py:134-163): `N = 2 * rank + 1`. -/
def wynnEpsilon (lst : List K) (rank : ℕ) : Except PyErr K :=
  match loopE (2 * rank + 1) (wynnFill lst) (fun _ _ => 0) with
  | .error e => .error e
  | .ok e0 =>
    let e := loop (2 * rank) wynnRow e0
    .ok |e (2 * rank + 1) (2 * rank + 1)|

end Wynn

/-! ## Reed's problem (`external1d.py:218-257`) -/

section Reeds

variable {K : Type} [Field K] [LinearOrder K]

/-- `loc(x) = int(np.argwhere(edges_x == x))` (external1d.py:249-250): a `TypeError` unless there is
exactly one match.  `n` is the number of edges. -/
def loc (n : ℕ) (edges : ℕ → K) (x : K) : Except PyErr ℕ :=
  match (List.range n).filter (fun i => edges i = x) with
  | [i] => .ok i
  | _ => .error .typeError

/-- `source_values`, `lhs`, `rhs` (external1d.py:238-240), zipped. -/
def reedTable : List (K × K × K) :=
  [(0, 0, 2), (1, 2, 4), (0, 4, 6), (50, 6, 8), (50, 8, 10), (0, 10, 12), (1, 12, 14), (0, 14, 16)]

/-- The slice and shift selected by `bc` (external1d.py:242-247). -/
def reedRows (bc : List ℤ) : List (K × K × K) :=
  if bc.sum > 0 then
    let rows := if bc = [0, 1] then reedTable.take 4 else reedTable.drop 4
    let corrector : K := if bc = [0, 1] then 0 else 8
    rows.map fun r => (r.1, r.2.1 - corrector, r.2.2 - corrector)
  else reedTable

/-- `bounds` (external1d.py:252), with the source values attached. -/
def reedBounds (n : ℕ) (edges : ℕ → K) : List (K × K × K) → Except PyErr (List (K × ℕ × ℕ))
  | [] => .ok []
  | r :: rs =>
    match loc n edges r.2.1 with
    | .error e => .error e
    | .ok lo =>
      match loc n edges r.2.2 with
      | .error e => .error e
      | .ok hi =>
        match reedBounds n edges rs with
        | .error e => .error e
        | .ok rest => .ok ((r.1, lo, hi) :: rest)

/-- `external[bounds[ii], 0, 0] = source_values[ii]` (external1d.py:254-255). -/
def reedWrite (ext : ℕ → K) (b : K × ℕ × ℕ) : ℕ → K :=
  fun c => if b.2.1 ≤ c ∧ c < b.2.2 then b.1 else ext c

/-- `reeds` (external1d.py:218-257). -/
def reeds (n : ℕ) (edges : ℕ → K) (bc : List ℤ) : Except PyErr (ℕ → K) :=
  match reedBounds n edges (reedRows bc) with
  | .error e => .error e
  | .ok bounds => .ok (bounds.foldl reedWrite fun _ => 0)

end Reeds

end Discrete1.Manufactured
