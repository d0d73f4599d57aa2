import Verif.Model.Basic

/-!
# Model of `utils/decorators.py` and of the SIGINT handling in `ml/tune.py`

The decorated call is a small-step machine.  A schedule is a list of events: the operating system delivers a
SIGINT, the Python program executes its next step, or the next step raises.  Python runs signal handlers
between bytecodes, so a SIGINT can arrive at any program point; the program points kept apart are those at
which the effect differs.
-/

namespace Discrete1.Interrupt

/-- The SIGINT handler that is installed (utils/decorators.py:59-84, 171-198). -/
inductive Handler
  | original
  | ours
  deriving DecidableEq

/-- One event of a schedule (utils/decorators.py:12-198). -/
inductive Ev
  | sig   -- the user presses Ctrl+C
  | step  -- the program executes its next step
  | fail  -- the next step of the decorated function raises
  deriving DecidableEq

/-- How a decorated call ends; `value` is what the caller receives (`none` is Python's `None`)
(utils/decorators.py:59-84, 171-198). -/
inductive Outcome (V : Type*)
  | normal (value : Option V)
  | keyboardInterrupt
  | failed

/-- Program points of the wrapper of `break_loop` around `for i in grange(n, stop_event=...)`
(utils/decorators.py:59-131). -/
inductive Pc (V : Type*)
  | entry                       -- before `signal.signal(signal.SIGINT, handler)`
  | installed                   -- after it, before `try`
  | check                       -- in `grange`, before the next value
  | body                        -- inside an iteration
  | leaving (o : Outcome V)     -- at the start of `finally`
  | restored (o : Outcome V)    -- after the handler was put back
  | done (o : Outcome V)        -- the call is over

/-- State of a decorated call (utils/decorators.py:59-131). -/
structure State (V : Type*) where
  pc : Pc V
  count : ℕ            -- `interrupt_count`
  stop : Bool          -- `stop_event` (break_loop) or `exit_requested` (finish_iteration)
  handler : Handler
  started : ℕ          -- iterations begun
  finished : ℕ         -- iterations completed
  passed : ℕ           -- interrupts handled by the original handler

/-- State when the wrapper is called (decorators.py:58-61). -/
def initial (V : Type*) : State V := ⟨.entry, 0, false, .original, 0, 0, 0⟩

/-- The handler of `break_loop` (decorators.py:63-72): the first call sets the stop flag, every later one
raises KeyboardInterrupt at the current program point.  Raised before `try` it leaves the wrapper directly;
inside `try` it goes to `finally`; raised inside `finally` before the handler is put back it also leaves
directly.  When the original handler is installed the signal is not ours. -/
def breakSig {V : Type*} (s : State V) : State V :=
  match s.handler with
  | .original => { s with passed := s.passed + 1 }
  | .ours =>
    if s.count = 0 then { s with count := 1, stop := true }
    else
      let s := { s with count := s.count + 1 }
      match s.pc with
      | .check | .body => { s with pc := .leaving .keyboardInterrupt }
      | .installed | .leaving _ => { s with pc := .done .keyboardInterrupt }
      | _ => s

/-- The next step of the program (decorators.py:74-82 and `grange`, 126-131, with `n` values).
`_ = func(...)` discards the returned value, so a normal end returns `None`. -/
def breakStep {V : Type*} (n : ℕ) (s : State V) : State V :=
  match s.pc with
  | .entry => { s with pc := .installed, handler := .ours }
  | .installed => { s with pc := .check }
  | .check =>
    if s.started = n then { s with pc := .leaving (.normal none) }
    else if s.stop then { s with pc := .leaving (.normal none) }
    else { s with pc := .body, started := s.started + 1 }
  | .body => { s with pc := .check, finished := s.finished + 1 }
  | .leaving o => { s with pc := .restored o, handler := .original }
  | .restored o => { s with pc := .done o, stop := false }
  | .done _ => s

/-- The decorated function raises (only its own code can) (utils/decorators.py:76-84). -/
def breakFail {V : Type*} (s : State V) : State V :=
  match s.pc with
  | .check | .body => { s with pc := .leaving .failed }
  | _ => s

/-- One event of a call decorated with `break_loop` (utils/decorators.py:12-131). -/
def breakEv {V : Type*} (n : ℕ) (s : State V) : Ev → State V
  | .sig => breakSig s
  | .step => breakStep n s
  | .fail => breakFail s

/-- A whole schedule (utils/decorators.py:12-131). -/
def breakRun {V : Type*} (n : ℕ) (l : List Ev) (s : State V) : State V := l.foldl (breakEv n) s

/-- The handler of `finish_iteration` (decorators.py:171-180): the first call requests the exit, the second
and later ones only print. -/
def finishSig {V : Type*} (s : State V) : State V :=
  match s.handler with
  | .original => { s with passed := s.passed + 1 }
  | .ours => { s with count := s.count + 1, stop := if s.count = 0 then true else s.stop }

/-- The wrapper of `finish_iteration` (decorators.py:182-194) around a function that takes `n` steps of work
and returns `v`. -/
def finishStep {V : Type*} (n : ℕ) (v : V) (s : State V) : State V :=
  match s.pc with
  | .entry => { s with pc := .installed, handler := .ours }
  | .installed => { s with pc := .check }
  | .check =>
    if s.started = n then { s with pc := .leaving (.normal (some v)) }
    else { s with pc := .body, started := s.started + 1 }
  | .body => { s with pc := .check, finished := s.finished + 1 }
  | .leaving o => { s with pc := .restored o, handler := .original }
  | .restored (.normal r) => { s with pc := .done (if s.stop then .keyboardInterrupt else .normal r) }
  | .restored o => { s with pc := .done o }
  | .done _ => s

/-- One event of a call decorated with `finish_iteration` (utils/decorators.py:134-198). -/
def finishEv {V : Type*} (n : ℕ) (v : V) (s : State V) : Ev → State V
  | .sig => finishSig s
  | .step => finishStep n v s
  | .fail => breakFail s

/-- A whole schedule (utils/decorators.py:134-198). -/
def finishRun {V : Type*} (n : ℕ) (v : V) (l : List Ev) (s : State V) : State V :=
  l.foldl (finishEv n v) s

/-! ### ml/tune.py -/

/-- What the installed handler does with a SIGINT that arrives while a study is, or is not, running.
`finish_trial`'s handler calls `study.stop()`, which optuna only allows inside a running optimisation
(RuntimeError otherwise) (ml/tune.py:36-49). -/
inductive Reaction
  | original          -- whatever the previous handler does
  | stopsStudy
  | runtimeError
  deriving DecidableEq

/-- State of `run` (tune.py:704-740): the handler and whether `study.optimize` is active. -/
structure TuneState where
  handler : Handler
  running : Bool

/-- `finish_trial(study)` (tune.py:36-49), then `study.optimize(...)` begins; later it ends (or raises), and
`run` returns without touching the handler again. -/
inductive TuneStep
  | finishTrial
  | optimizeBegins
  | optimizeEnds      -- normally, by `study.stop()` or by an exception
  | returns

/-- One step of `run` (tune.py:704-740). -/
def tuneStep (s : TuneState) : TuneStep → TuneState
  | .finishTrial => { s with handler := .ours }
  | .optimizeBegins => { s with running := true }
  | .optimizeEnds => { s with running := false }
  | .returns => s

/-- The steps of one call of `run` (ml/tune.py:704-740). -/
def tuneRun : List TuneStep := [.finishTrial, .optimizeBegins, .optimizeEnds, .returns]

/-- What a SIGINT meets in a given state (tune.py:36-49). -/
def tuneReaction (s : TuneState) : Reaction :=
  match s.handler, s.running with
  | .original, _ => .original
  | .ours, true => .stopsStudy
  | .ours, false => .runtimeError

end Discrete1.Interrupt
