import Verif.Model.ES

/-!
# Model of the parallel part of `ParallelSingleRuleDiscovery.optimize` (suprb/optimizer/rule/base.py:93-99)

Each per-rule optimisation is a task with its own state (initial rule and random stream); a schedule says which task runs its next step. `joblib.Parallel` returns the
results in submission order. That the tasks share no mutable state is read off the code: `_optimize` (suprb/optimizer/rule/es/es.py:91-137) only reads
`X`, `y` and the components, mutations work on clones (suprb/optimizer/rule/mutation.py:24), and each task got its own generator (suprb/utils.py:35-38).
Not modelled: worker crashes, and the loky / thread backends themselves.
-/

set_option autoImplicit false

namespace Suprb

/-- A sequential task: `step` runs its next step, `result` is its return value once finished. (`joblib.Parallel` in suprb/optimizer/rule/base.py:93-97) -/
structure Task (σ R : Type) where
  step : σ → σ
  result : σ → Option R

variable {σ R : Type}

/-- The scheduler lets task `i` do one step (nothing happens if it is finished or does not exist). (`joblib.Parallel` in suprb/optimizer/rule/base.py:93-97) -/
def Task.run1 (T : Task σ R) (st : List σ) (i : Nat) : List σ :=
  st.modify i fun s => if (T.result s).isSome then s else T.step s

/-- A schedule: the order in which the tasks get to run (suprb/optimizer/rule/base.py:93-97). -/
def Task.run (T : Task σ R) (st : List σ) (schedule : List Nat) : List σ := schedule.foldl T.run1 st

/-- The results in submission order; `none` if some task is not finished. (`joblib.Parallel` in suprb/optimizer/rule/base.py:93-97) -/
def Task.collect (T : Task σ R) (st : List σ) : Option (List R) := st.mapM T.result

variable {Z S F : Type} [LE F] [DecidableLE F]

/-- Where an evolution strategy run stands: finished, or (remaining draws, elitist, deque). (suprb/optimizer/rule/es/es.py:99-137) -/
inductive ESState (R Z S : Type)
  | done (r : Except PyErr R)
  | running (gens : List (List Z × S)) (elitist : R) (w : List R)

/-- The evolution strategy (suprb/optimizer/rule/es/es.py:91-137) as a task, one generation per step. -/
def esTask (P : ESParams R Z S F) : Task (ESState R Z S) (Except PyErr R) where
  step
    | .done r => .done r
    | .running [] elitist _ => .done (.ok elitist)
    | .running ((zs, s) :: gs) elitist w =>
      match esGen P zs s elitist w with
      | .error e => .done (.error e)
      | .ok (.stop r) => .done (.ok r)
      | .ok (.next e w) => .running gs e w
  result
    | .done r => some r
    | .running _ _ _ => none

/-- suprb/optimizer/rule/base.py:93-99 with the tasks run in the order of `schedule`: `none` while unfinished, otherwise an exception of a task or the
filtered rules. -/
def parallelES (P : ESParams R Z S F) (accept : R → Except PyErr Bool) (initial : List R) (streams : List (List (List Z × S)))
    (schedule : List Nat) : Option (Except PyErr (List R)) :=
  ((esTask P).collect ((esTask P).run ((initial.zip streams).map fun p => ESState.running p.2 p.1 []) schedule)).map fun rs =>
    match rs.mapM id with
    | .error e => .error e
    | .ok l => filterInvalid accept (l.map some)

end Suprb
