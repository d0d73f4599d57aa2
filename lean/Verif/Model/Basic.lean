import Mathlib.Algebra.BigOperators.Group.Finset.Basic
import Mathlib.Algebra.Order.Field.Basic
import Mathlib.Logic.Function.Basic

/-!
# Common vocabulary of the model

Arrays are total functions on `ℕ` with sizes passed explicitly; Python loops are the structural
recursions below; exceptions are values of `Except PyErr`.
-/

namespace Discrete1

/-- The exceptions the modelled code can raise
(raised by numpy, by Python or by `raise` statements, e.g. spatial_sweep.py:373, ml/tune.py:207). -/
inductive PyErr
  | discontinuity      -- `raise Exception("Discontinuity at 0")`
  | indexError
  | keyError
  | typeError
  | valueError
  | unboundLocal
  | assertion
  | keyboardInterrupt
  | attributeError
  | zeroDivision
  | fileNotFound
  | runtimeError
  | importError
  deriving DecidableEq, Repr

variable {σ : Type*}

/-- `for i in range(n): s = f(i, s)` (e.g. spatial_sweep.py:425). -/
def loop : ℕ → (ℕ → σ → σ) → σ → σ
  | 0, _, s => s
  | n + 1, f, s => f n (loop n f s)

/-- `for i in range(n - 1, -1, -1): s = f(i, s)` (e.g. spatial_sweep.py:481). -/
def loopDown : ℕ → (ℕ → σ → σ) → σ → σ
  | 0, _, s => s
  | n + 1, f, s => loopDown n f (f n s)

/-- `for i in range(n)` whose body may raise (e.g. multi_group.py:154). -/
def loopE {ε : Type*} : ℕ → (ℕ → σ → Except ε σ) → σ → Except ε σ
  | 0, _, s => .ok s
  | n + 1, f, s =>
    match loopE n f s with
    | .error e => .error e
    | .ok s' => f n s'

/-- `acc = 0.0; for i in range(n): acc += f(i)` (e.g. tools.py:738-742). -/
def accum {K : Type*} [Add K] [Zero K] (n : ℕ) (f : ℕ → K) : K :=
  loop n (fun i acc => acc + f i) 0

/-- `array[i] += v` on a one-dimensional array (e.g. tools.py:179). -/
def addAt {K : Type*} [Add K] (a : ℕ → K) (i : ℕ) (v : K) : ℕ → K :=
  Function.update a i (a i + v)

/-- `array[i] = v` on a one-dimensional array (e.g. spatial_sweep.py:915). -/
def setAt {K : Type*} (a : ℕ → K) (i : ℕ) (v : K) : ℕ → K :=
  Function.update a i v

/-- `while not converged: new = sweep(old); converged = test(new, old) or count >= limit; ...`
with `left + 1` sweeps still allowed.  Returns the last iterate.  This is the common shape of every
iteration driver of the code base (e.g. `multi_group.py:329-353`, `spatial_sweep.py:331-387`):
the body is executed, then the convergence test decides. -/
def iterate {α : Type*} (sweep : α → α) (conv : α → α → Bool) : ℕ → α → α
  | 0, old => sweep old
  | left + 1, old =>
    let new := sweep old
    if conv new old then new else iterate sweep conv left new

/-- Same driver with a body that may raise (spatial_sweep.py:328-387, multi_group.py:309-352). -/
def iterateE {α ε : Type*} (sweep : α → Except ε α) (conv : α → α → Bool) : ℕ → α → Except ε α
  | 0, old => sweep old
  | left + 1, old =>
    match sweep old with
    | .error e => .error e
    | .ok new => if conv new old then .ok new else iterateE sweep conv left new

end Discrete1
