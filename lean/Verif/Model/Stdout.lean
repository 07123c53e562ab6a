import Verif.Model.Logging
import Verif.Model.Metrics

/-!
# Model of `suprb/logging/stdout.py`

Messages are modelled as records of the numbers they contain; how numbers and dictionaries are printed is not modelled.
-/

set_option autoImplicit false

namespace Suprb

open Spec

variable {K : Type} [Field K] [LinearOrder K] {d : Nat} {M : Type}

/-- A message of `StdoutLogger`: line 32 (`[number/total] Statistics: {error, fitness, complexity, score}`) and line 46. A score is `none` if it is not a number. (suprb/logging/stdout.py:32, 46) -/
inductive StdoutLine (K : Type) where
  | statistics (number total : Nat) (error fitness : K) (complexity : Nat) (score : Option K)
  | final (score : Option K)
deriving DecidableEq

/-- `StdoutLogger` during a fit: the messages so far, and the progress bar, if there is one (suprb/logging/stdout.py:13, 18-20): how far it is, and its end. -/
structure StdoutState (K : Type) where
  lines : List (StdoutLine K) := []
  bar : Option (Nat × Nat) := none

/-- What the logger looks at when it is called (suprb/suprb.py:183, 201, 210): the number of iterations of the estimator, the pool and solution composition, and what `estimator.predict(X)` would return. -/
structure LogView (K : Type) (d : Nat) (M : Type) where
  nIter : Nat
  pool : List (Rule K d M) := []
  comp : CompState K := {}
  predict : Except PyErr (List K) := .error .valueError

/-- suprb/logging/stdout.py:15-20 `__init__`, `log_init`; the parameter is `progress_bar`. -/
def stdoutInit (progressBar : Bool) (v : LogView K d M) : StdoutState K := { bar := if progressBar then some (0, v.nIter) else none }

/-- suprb/logging/stdout.py:22-41 `log_iteration`. Both `print` and `iterator_.write` write a line. -/
def stdoutIteration (c : SupComp K d M) (X : List (Point K d)) (y : List K) (v : LogView K d M) (iteration : Nat) (s : StdoutState K) : Except PyErr (StdoutState K) :=
  match v.comp.elitist with
  | .error e => .error e
  | .ok none => .error .attributeError
  | .ok (some el) =>
    match el.st with
    | none => .error .attributeError
    | some a =>
      match Solution.predict c.learner c.mix c.filter false { genome := el.genome, pool := v.pool, st := el.st } X with
      | .error e => .error e
      | .ok out => .ok
        { lines := s.lines ++ [.statistics (iteration + 1) v.nIter a.error a.fitness a.complexity (r2Score y out)],
          bar := s.bar.map fun b => (b.1 + 1, b.2) }

/-- suprb/logging/stdout.py:43-51 `log_final`. -/
def stdoutFinal (y : List K) (v : LogView K d M) (s : StdoutState K) : Except PyErr (StdoutState K) :=
  match v.predict with
  | .error e => .error e
  | .ok out => .ok { s with lines := s.lines ++ [.final (r2Score y out)] }

/-- suprb/logging/stdout.py:10-54 as a logger. -/
def stdoutOps (c : SupComp K d M) (X : List (Point K d)) (y : List K) : LoggerOps Bool (StdoutState K) (LogView K d M) where
  init b v := .ok (stdoutInit b v)
  iter v k s := stdoutIteration c X y v k s
  final v s := stdoutFinal y v s

/-- What the logger sees after the iterations (suprb/suprb.py:201). -/
def iterationViews (nIter : Nat) (t : List (Event K d M)) : List (LogView K d M) := (loggedStates t).map fun q => { nIter, pool := q.1, comp := q.2 }

/-- The calls of a logger in a fit that completes (suprb/suprb.py:183, 201, 210). `log_final` is called before the clean-up (213), so the estimator is the one of a fit without clean-up. -/
def stdoutRun (cfg : SupCfg K) (c : SupComp K d M) (entropy : Nat) (raw : RawData K d) (st0 : SupState K d M) (progressBar : Bool) : Except PyErr (StdoutState K) :=
  let r := st0.fit cfg c entropy raw false
  (stdoutOps c raw.X raw.y).run progressBar { nIter := cfg.nIter } (iterationViews cfg.nIter r.trace) { nIter := cfg.nIter, predict := r.state.predict c raw.X }

/-! ## The warning about nested loggers -/

/-- The objects `CombinedLogger.log_init` looks at: loggers of some class, combined loggers, and the pairs of a name and a logger. (suprb/logging/combination.py:15-23) -/
inductive LogObject where
  | plain
  | combined (loggers : List LogObject)
  | pair (name : String) (logger : LogObject)

/-- `isinstance(logger, CombinedLogger)` (suprb/logging/combination.py:20) -/
def LogObject.isCombined : LogObject → Bool
  | .combined _ => true
  | _ => false

/-- suprb/logging/combination.py:20-21: whether `log_init` warns. The members of `self.loggers` are pairs. -/
def nestingWarning (loggers : List (String × LogObject)) : Bool := (loggers.map fun q => LogObject.pair q.1 q.2).any fun logger => logger.isCombined

end Suprb
