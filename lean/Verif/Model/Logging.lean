import Verif.Model.SupRB
import Verif.Model.Sas
import Mathlib.Algebra.Order.Floor.Semiring
import Mathlib.Data.Rat.Floor

/-!
# Model of `suprb/logging/default.py`

Logged values are `Option K`: `none` stands for a value that is infinite or not a number. Statistics over a pool that contains a rule with fitness `-inf` are
all logged as `none` (in the code some of them are `-inf`, some are numbers and some are `nan`); rules accepted by rule discovery have finite fitness. The
parameters stored by `log_init` (`params_`) are not modelled.
-/

set_option autoImplicit false

namespace Suprb

open Spec

variable {K : Type} [Field K] [LinearOrder K] [FloorSemiring K] {d : Nat} {M : Type}

/-! ## Statistics

`np.median` (suprb/logging/default.py:44) is `npMedian` of `Verif.Model.Sas`. -/

/-- numpy's linear interpolation at the virtual index `v` of the sorted values `s`: below the first index the first value, at or above the last index the last
value. (suprb/logging/default.py:47-62) -/
def interpolate (s : List K) (v : K) : K :=
  if v < 0 then s.getD 0 0
  else if (s.length : K) - 1 ≤ v then s.getD (s.length - 1) 0
  else s.getD ⌊v⌋₊ 0 + (s.getD (⌊v⌋₊ + 1) 0 - s.getD ⌊v⌋₊ 0) * (v - (⌊v⌋₊ : K))

/-- `np.percentile(values, 100 * q, method="median_unbiased")` (suprb/logging/default.py:47-62): virtual index `n q + (alpha + q (1 - alpha - beta)) - 1`
with `alpha = beta = 1/3`. -/
def percentile (q : K) (l : List K) : K :=
  interpolate (sortedAsc id l) ((l.length : K) * q + (1 / 3 + q * (1 - 1 / 3 - 1 / 3)) - 1)

/-- suprb/logging/default.py:39-62 `log_metric_stats` for the list of attribute values: suffix and value. `min` of an empty list is a `ValueError`. -/
def metricStats (l : List K) : Except PyErr (List (String × K)) :=
  match l with
  | [] => .error .valueError
  | a :: rest => .ok [
      ("_min", rest.foldl min a),
      ("_mean", l.sum / (l.length : K)),
      ("_max", rest.foldl max a),
      ("_median", npMedian l),
      ("_percentile10", percentile (1 / 10) l),
      ("_percentile25", percentile (1 / 4) l),
      ("_percentile75", percentile (3 / 4) l),
      ("_percentile90", percentile (9 / 10) l)]

/-- `r2_score(y, pred)` behind `elitist.score(X, y)` (suprb/logging/default.py:89; suprb/solution/base.py inherits `RegressorMixin`): undefined (`nan`) for
fewer than two samples; for constant targets 1 if the predictions are perfect and 0 otherwise. -/
def r2Score (y p : List K) : Option K :=
  if y.length < 2 then none
  else
    let num := (List.zipWith (fun a b => (a - b) * (a - b)) y p).sum
    let mean := y.sum / (y.length : K)
    let den := (y.map fun a => (a - mean) * (a - mean)).sum
    if den = 0 then (if num = 0 then some 1 else some 0) else some (1 - num / den)

/-! ## The default logger -/

/-- `metrics_` (suprb/logging/default.py:31): metric name and step to logged value; `none` if there is no entry. -/
abbrev Metrics (K : Type) := String → Nat → Option (Option K)

/-- `metrics_ = defaultdict(dict)` in `log_init` (suprb/logging/default.py:29-31). -/
def Metrics.empty {K : Type} : Metrics K := fun _ _ => none

/-- suprb/logging/default.py:22-23 `log_metric`: overwrites an existing entry. -/
def Metrics.log {K : Type} (m : Metrics K) (key : String) (step : Nat) (v : Option K) : Metrics K := fun k s => if k = key ∧ s = step then some v else m k s

/-- Several metrics at the same step, in order. (suprb/logging/default.py:36-37) -/
def Metrics.logMany {K : Type} (m : Metrics K) (step : Nat) (kvs : List (String × Option K)) : Metrics K := kvs.foldl (fun m kv => m.log kv.1 step kv.2) m

/-- suprb/logging/default.py:64-69: pool size, and the statistics of the rules' fitness unless the pool is empty. Rules that were never fitted have no `fitness_`. -/
def poolMetrics (pool : List (Rule K d M)) : Except PyErr (List (String × Option K)) :=
  match pool with
  | [] => .ok [("pool_size", some 0)]
  | _ :: _ =>
    match pool.mapM (fun ρ => match ρ.st with | none => Except.error PyErr.attributeError | some s => .ok s.fitness) with
    | .error e => .error e
    | .ok fs =>
      match metricStats (fs.map fun f => f.unbotD 0) with
      | .error e => .error e
      | .ok stats =>
        .ok (("pool_size", some (pool.length : K)) ::
          stats.map fun kv => ("pool_fitness" ++ kv.1, if fs.all fun f => decide (f ≠ ⊥) then some kv.2 else none))

/-- suprb/logging/default.py:39-40 `[getattr(e, attribute_name) for e in lst]` for solutions, and the statistics of the values. -/
def popMetrics (name : String) (attr : SolState K → K) (pop : List (Indiv K)) : Except PyErr (List (String × Option K)) :=
  match pop.mapM (fun σ => match σ.st with | none => Except.error PyErr.attributeError | some s => .ok (attr s)) with
  | .error e => .error e
  | .ok vs =>
    match metricStats vs with
    | .error e => .error e
    | .ok stats => .ok (stats.map fun kv => (name ++ kv.1, some kv.2))

/-- suprb/logging/default.py:71-78: the population. `len(None)` is a `TypeError`. -/
def populationMetrics (comp : CompState K) : Except PyErr (List (String × Option K)) :=
  match comp.population with
  | none => .error .typeError
  | some pop =>
    match popMetrics "population_fitness" SolState.fitness pop with
    | .error e => .error e
    | .ok a =>
      match popMetrics "population_error" SolState.error pop with
      | .error e => .error e
      | .ok b =>
        match popMetrics "population_complexity" (fun s => (s.complexity : K)) pop with
        | .error e => .error e
        | .ok c => .ok (("population_size", some (pop.length : K)) :: (a ++ b ++ c))

/-- suprb/logging/default.py:81-89: elitist and training score. -/
def elitistMetrics (L : Learner K d M) (P : MixParams K) (filt : SubFilter K d M) (X : List (Point K d)) (y : List K) (pool : List (Rule K d M))
    (comp : CompState K) : Except PyErr (List (String × Option K)) :=
  match comp.elitist with
  | .error e => .error e
  | .ok none => .error .attributeError
  | .ok (some el) =>
    match el.st with
    | none => .error .attributeError
    | some s =>
      match Solution.predict L P filt false { genome := el.genome, pool := pool, st := el.st } X with
      | .error e => .error e
      | .ok out => .ok [("elitist_fitness", some s.fitness), ("elitist_error", some s.error), ("elitist_complexity", some (s.complexity : K)),
          ("training_score", r2Score y out)]

/-- suprb/logging/default.py:35-89 `log_iteration`; `step` is `estimator.step_`. -/
def logIteration (L : Learner K d M) (P : MixParams K) (filt : SubFilter K d M) (X : List (Point K d)) (y : List K) (step : Nat)
    (pool : List (Rule K d M)) (comp : CompState K) (m : Metrics K) : Except PyErr (Metrics K) :=
  match poolMetrics pool with
  | .error e => .error e
  | .ok a =>
    match populationMetrics comp with
    | .error e => .error e
    | .ok b =>
      match elitistMetrics L P filt X y pool comp with
      | .error e => .error e
      | .ok c => .ok (m.logMany step (a ++ b ++ c))

/-- What the logger sees after the iterations: pool and composition (suprb/suprb.py:201). -/
def loggedStates (t : List (Event K d M)) : List (List (Rule K d M) × CompState K) := t.filterMap fun
  | .composed pool comp _ => some (pool, comp)
  | _ => none

/-- The calls of the logger during `fit`: `log_init` (suprb/suprb.py:183), then `log_iteration` (201) with `step_` 0, 1, 2, … -/
def logFrom (L : Learner K d M) (P : MixParams K) (filt : SubFilter K d M) (X : List (Point K d)) (y : List K) :
    Nat → List (List (Rule K d M) × CompState K) → Metrics K → Except PyErr (Metrics K)
  | _, [], m => .ok m
  | k, (pool, comp) :: rest, m =>
    match logIteration L P filt X y k pool comp m with
    | .error e => .error e
    | .ok m' => logFrom L P filt X y (k + 1) rest m'

/-- `metrics_` of the default logger after a run with trace `t`. (suprb/logging/default.py:29-89; suprb/suprb.py:183, 201) -/
def logRun (c : SupComp K d M) (X : List (Point K d)) (y : List K) (t : List (Event K d M)) : Except PyErr (Metrics K) :=
  logFrom c.learner c.mix c.filter X y 0 (loggedStates t) Metrics.empty

end Suprb
