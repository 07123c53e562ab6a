import Verif.Model.Prog
import Verif.Model.Rule
import Verif.Model.Origin

/-!
# Model of `suprb/logging/metrics.py` and `suprb/logging/combination.py`
-/

set_option autoImplicit false

namespace Suprb

open Spec

variable {K : Type} [Field K] [LinearOrder K] {d : Nat} {M : Type}

/-! ## Metrics -/

/-- suprb/logging/metrics.py:19-20 `hamming_distance`: arrays of different length do not broadcast (`ValueError`), except arrays of length 1. -/
def genomeHamming (a b : List Bool) : Except PyErr Nat :=
  if a.length = b.length then .ok ((a.zip b).countP fun p => p.1 != p.2)
  else match a, b with
    | [x], b => .ok (b.countP fun y => x != y)
    | a, [y] => .ok (a.countP fun x => x != y)
    | _, _ => .error .valueError

/-- `itertools.combinations(l, 2)`. (suprb/logging/metrics.py:15) -/
def combinations2 {α : Type} : List α → List (α × α)
  | [] => []
  | a :: rest => rest.map (fun b => (a, b)) ++ combinations2 rest

/-- suprb/logging/metrics.py:7-16 `genome_diversity`; `population[0]` of an empty population is an `IndexError`. The result is a numpy number. -/
def genomeDiversity (pop : List (Indiv K)) : Except PyErr (NpFloat K) :=
  match (combinations2 pop).mapM fun p => genomeHamming p.1.genome p.2.genome with
  | .error e => .error e
  | .ok ds =>
    match pop with
    | [] => .error .indexError
    | σ :: _ => .ok (npDiv ((ds.sum : Nat) : K) (σ.genome.length : K))

/-- suprb/logging/metrics.py:23-29 `matched_training_samples`. `np.stack` of arrays of different shape is a `ValueError`; `matched / total` is a quotient of python integers. -/
def matchedTrainingSamples (pool : List (Rule K d M)) : Except PyErr K :=
  match pool with
  | [] => .ok 0
  | _ :: _ =>
    match pool.mapM Rule.storedMatchSet with
    | .error e => .error e
    | .ok [] => .error .valueError
    | .ok (m :: ms) =>
      if ms.all (fun m' => m'.length == m.length) then
        if m.length = 0 then .error .zeroDivisionError
        else .ok ((((List.range m.length).countP fun i => (m :: ms).any fun m' => m'.getD i false : Nat) : K) / (m.length : K))
      else .error .valueError

/-! ## Combined loggers -/

/-- The interface of loggers (suprb/logging/base.py:8-29), for loggers with parameters `P`, state `S` and calls about `In` (data and estimator). `init` is the clone of the logger
after `log_init`. The class of a logger belongs to its parameters. -/
structure LoggerOps (P S In : Type) where
  init : P → In → Except PyErr S
  iter : In → Nat → S → Except PyErr S
  final : In → S → Except PyErr S

section Combined

variable {P S In V : Type}

/-- What a fit does with its logger (suprb/suprb.py:183, 201, 210): `log_init`, one `log_iteration` per iteration, `log_final`. -/
def LoggerOps.iterAll (ops : LoggerOps P S In) : Nat → List In → S → Except PyErr S
  | _, [], s => .ok s
  | k, i :: is, s =>
    match ops.iter i k s with
    | .error e => .error e
    | .ok s' => ops.iterAll (k + 1) is s'

/-- See `iterAll`. (suprb/suprb.py:183, 201, 210) -/
def LoggerOps.run (ops : LoggerOps P S In) (p : P) (start : In) (iters : List In) (fin : In) : Except PyErr S :=
  match ops.init p start with
  | .error e => .error e
  | .ok s =>
    match ops.iterAll 0 iters s with
    | .error e => .error e
    | .ok s => ops.final fin s

/-- `for _, logger in self.loggers_: logger.f(...)` (suprb/logging/combination.py:25-26, 29-30, 33-34) -/
def forLoggers (f : S → Except PyErr S) (l : List (String × S)) : Except PyErr (List (String × S)) :=
  l.mapM fun q => match f q.2 with | .error e => .error e | .ok s => .ok (q.1, s)

/-- suprb/logging/combination.py:19-34 `CombinedLogger`: `log_init` (19-26; the warning about nested loggers only prints), `log_iteration` (28-30), `log_final` (32-34). The loggers are cloned, so
that they share no state with each other or with earlier fits. -/
def combinedOps (ops : LoggerOps P S In) : LoggerOps (List (String × P)) (List (String × S)) In where
  init loggers i := loggers.mapM fun q => match ops.init q.2 i with | .error e => .error e | .ok s => .ok (q.1, s)
  iter i k := forLoggers (ops.iter i k)
  final i := forLoggers (ops.final i)

/-- suprb/logging/combination.py:65-72 `_replace_logger`. -/
def replaceLogger (name : String) (new : P) : List (String × P) → List (String × P)
  | [] => []
  | q :: rest => if q.1 = name then (name, new) :: rest else q :: replaceLogger name new rest

/-- suprb/logging/combination.py:48-63 `set_params`, with the keyword arguments in three groups: `loggers=…`, keys without `__` (whose values are loggers) and keys `name__sub`. `setP` is `set_params` of
the loggers. The last part is `BaseEstimator.set_params` of scikit-learn: unknown names are `ValueError`s, parameters of one logger are set together. Names are unique (suprb/logging/combination.py:16)
and contain no `__`; which of several errors is raised is not modelled. -/
def setLoggerParams (setP : P → List (String × V) → Except PyErr P) (loggers : List (String × P)) (arg : Option (List (String × P))) (repl : List (String × P))
    (nested : List (String × String × V)) : Except PyErr (List (String × P)) :=
  let items := arg.getD loggers
  let names := items.map Prod.fst
  let items := (repl.filter fun r => decide (r.1 ∈ names)).foldl (fun l r => replaceLogger r.1 r.2 l) items
  if (repl.any fun r => decide (r.1 ∉ names)) || nested.any fun n => decide (n.1 ∉ names) && decide (n.1 ≠ "loggers") then .error .valueError
  else if nested.any fun n => decide (n.1 ∉ names) then .error .attributeError
  else items.mapM fun q =>
    match (nested.filter fun n => decide (n.1 = q.1)).map Prod.snd with
    | [] => .ok q
    | sub => match setP q.2 sub with | .error e => .error e | .ok p => .ok (q.1, p)

/-- suprb/logging/combination.py:36-46 `get_params(deep=True)`: the entry for a logger name (`dict.update`: the last one wins). -/
def getLogger (loggers : List (String × P)) (name : String) : Option P := (loggers.reverse.find? fun q => decide (q.1 = name)).map Prod.snd

end Combined

end Suprb
