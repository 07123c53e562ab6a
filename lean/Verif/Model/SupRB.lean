import Verif.Model.Composition

/-!
# Model of `suprb/suprb.py`: `SupRB.fit`, `SupRB.predict`, early stopping, error containment, seeds

Rule discovery and the metaheuristic are functions of the seed they receive (arbitrary functions here, the concrete ones are modelled in
`Verif.Model.ES` and `Verif.Model.Composition`). The logger is assumed to succeed whenever the population it logs is non-empty. Output to the screen
and warnings are not modelled. Exceptions derived from `BaseException` only (keyboard interrupt) are not modelled.
-/

set_option autoImplicit false

namespace Suprb

open Spec

variable {K : Type} [Field K] [LinearOrder K] {d : Nat} {M : Type}

/-- `numpy.random.SeedSequence` after spawning: entropy and spawn key. (suprb/suprb.py:161) -/
structure Seed where
  entropy : Nat
  key : List Nat
  deriving DecidableEq

/-- `np.random.SeedSequence(random_state).spawn(n)` (suprb/suprb.py:161): child `i` of a new sequence has spawn key `(i,)`. -/
def spawnSeeds (entropy n : Nat) : List Seed := (List.range n).map fun i => { entropy := entropy, key := [i] }

/-- `l[::2]` (suprb/suprb.py:162-163) -/
def everyOther {α : Type} : List α → List α
  | [] => []
  | [a] => [a]
  | a :: _ :: rest => a :: everyOther rest

/-- suprb/suprb.py:162 `rule_discovery_seeds_`. -/
def discoverySeeds (entropy nIter : Nat) : List Seed := everyOther (spawnSeeds entropy (nIter * 2))

/-- suprb/suprb.py:163 `solution_composition_seeds_`. -/
def compositionSeeds (entropy nIter : Nat) : List Seed := everyOther ((spawnSeeds entropy (nIter * 2)).drop 1)

/-- Parameters of suprb/suprb.py:80-106 that control the run (non-negative counts); `useArchive` is false for `archive=None` in the composition. -/
structure SupCfg (K : Type) where
  nIter : Nat
  nInitial : Nat
  nRules : Nat
  patience : Int
  delta : K
  comp : CompCfg K
  useArchive : Bool

/-- Observable steps of a run. (suprb/suprb.py:186-213) -/
inductive Event (K : Type) (d : Nat) (M : Type)
  /-- a call of rule discovery: seed, elitist and pool it sees, number of rules requested -/
  | discover (seed : Seed) (elitist : Option (Indiv K)) (pool : List (Rule K d M)) (n : Nat)
  /-- a call of the composition: seed, pool, population and archive before -/
  | compose (seed : Seed) (pool : List (Rule K d M)) (before : CompState K)
  /-- the composition of an iteration is finished: pool, population and archive, elitist -/
  | composed (pool : List (Rule K d M)) (result : CompState K) (elitist : Indiv K)

/-- The components: rule discovery (`optimize`, with the elitist, pool and data it can see), the metaheuristic, and the evaluation of solutions. The first two
may depend on everything that happened since `fit` created them (`history`), which covers attributes they keep between calls and seed objects that continue
their spawn counter when used twice. (suprb/suprb.py:168-169, 252, 272) -/
structure SupComp (K : Type) (d : Nat) (M : Type) where
  discover : Seed → (history : List (Event K d M)) → Option (Indiv K) → List (Rule K d M) → List (Point K d) → List K → Nat →
    Except PyErr (List (Rule K d M))
  strategy : Seed → (history : List (Event K d M)) → Strategy K
  initDraw : Seed → Nat → Nat → K
  learner : Learner K d M
  mix : MixParams K
  filter : SubFilter K d M
  fitness : (maxGenomeLength : Nat) → SolFitness K

/-- State of the loop: pool, composition, early stopping counter, `step_`, and the trace so far. (suprb/suprb.py:144, 166, 191) -/
structure RunState (K : Type) (d : Nat) (M : Type) where
  pool : List (Rule K d M) := []
  comp : CompState K
  counter : Nat := 0
  step : Nat
  trace : List (Event K d M) := []

/-- Outcome of the loop: completed, an exception caught by `_catch_errors`, or an exception that escapes `fit`. (suprb/suprb.py:186-204, 217-238) -/
inductive Outcome (K : Type) (d : Nat) (M : Type)
  | done (s : RunState K d M)
  | caught (s : RunState K d M)
  | raised (s : RunState K d M) (e : PyErr)

/-- The state in which the loop ended. (suprb/suprb.py:186-204) -/
def Outcome.state : Outcome K d M → RunState K d M
  | .done s => s
  | .caught s => s
  | .raised s _ => s

/-- suprb/suprb.py:179 `max_genome_length_`. -/
def SupCfg.maxGenomeLength (cfg : SupCfg K) : Nat := cfg.nRules * cfg.nIter + cfg.nInitial

/-- Evaluation of genomes for a pool. (suprb/suprb.py:178-179, 272) -/
abbrev PoolEval (K : Type) (d : Nat) (M : Type) := List (Rule K d M) → Eval K

/-- The evaluation of genomes during a run (suprb/solution/base.py:54-61 with the components of the run). -/
def runEval (cfg : SupCfg K) (c : SupComp K d M) (X : List (Point K d)) (y : List K) : PoolEval K d M := fun pool =>
  evalGenome c.learner c.mix c.filter (c.fitness cfg.maxGenomeLength) X y pool

/-- suprb/suprb.py:240-261 `_discover_rules`, called through `_catch_errors` (217-238): with `n_rules` equal to zero the function is called without its
third argument, which is a `TypeError`. Returns the new state and the exception. -/
def discoverStep (cfg : SupCfg K) (c : SupComp K d M) (entropy : Nat) (X : List (Point K d)) (y : List K) (n : Nat) (s : RunState K d M) :
    RunState K d M × Option PyErr :=
  if n = 0 then (s, some .typeError)
  else match s.comp.elitist with
    | .error e => (s, some e)
    | .ok el =>
      match (discoverySeeds entropy cfg.nIter)[s.step]? with
      | none => (s, some .indexError)
      | some seed =>
        let s' := { s with trace := s.trace ++ [.discover seed el s.pool n] }
        match c.discover seed s.trace el s.pool X y n with
        | .error e => (s', some e)
        | .ok rules => ({ s' with pool := s.pool ++ rules }, none)

/-- suprb/suprb.py:263-272 `_compose_solution`, called through `_catch_errors` with `n_rules=False`. -/
def composeStep (cfg : SupCfg K) (c : SupComp K d M) (ev : PoolEval K d M) (entropy : Nat) (s : RunState K d M) :
    RunState K d M × Option PyErr :=
  match (compositionSeeds entropy cfg.nIter)[s.step]? with
  | none => (s, some .indexError)
  | some seed =>
    let s' := { s with trace := s.trace ++ [.compose seed s.pool s.comp] }
    match compOptimize cfg.comp (c.initDraw seed) (c.strategy seed s.trace) (ev s.pool) s.pool.length s.comp with
    | .error e => (s', some e)
    | .ok comp => ({ s' with comp := comp }, none)

/-- suprb/suprb.py:108-122 `check_early_stopping`: the new counter and whether to stop. `previous_fitness_` is set to 0 at the start of `fit` (145) and never
changed. -/
def checkEarlyStopping (cfg : SupCfg K) (fitness : K) (counter : Nat) : Nat × Bool :=
  if 0 < cfg.patience then
    if cfg.delta < fitness - 0 then (0, false)
    else (counter + 1, decide (cfg.patience ≤ ((counter + 1 : Nat) : Int)))
  else (counter, false)

/-- suprb/suprb.py:191-204: the main loop over the remaining values of `step_`. -/
def fitLoop (cfg : SupCfg K) (c : SupComp K d M) (ev : PoolEval K d M) (entropy : Nat) (X : List (Point K d)) (y : List K) :
    List Nat → RunState K d M → Outcome K d M
  | [], s => .done s
  | k :: rest, s0 =>
    match discoverStep cfg c entropy X y cfg.nRules { s0 with step := k } with
    | (s1, some _) => .caught s1
    | (s1, none) =>
      match composeStep cfg c ev entropy s1 with
      | (s2, some _) => .caught s2
      | (s2, none) =>
        -- log_iteration (201) and check_early_stopping (203) read the elitist; without population they fail outside `_catch_errors`
        match s2.comp.elitist with
        | .error e => .raised s2 e
        | .ok none => .raised s2 .valueError
        | .ok (some el) =>
          let s3 := { s2 with
            counter := (checkEarlyStopping cfg el.fitnessD s2.counter).1
            trace := s2.trace ++ [.composed s2.pool s2.comp el] }
          if (checkEarlyStopping cfg el.fitnessD s2.counter).2 then .done s3
          else fitLoop cfg c ev entropy X y rest s3

/-- The `elitist_` attribute: the placeholder of suprb/suprb.py:147-150 or a solution with the pool it refers to. -/
inductive Elitist (K : Type) (d : Nat) (M : Type)
  | placeholder
  | solution (σ : Solution K d M)

/-- The estimator object: attributes that `fit` and `predict` read or write. `step` is a class attribute with value 0 (61). (suprb/suprb.py:61-78) -/
structure SupState (K : Type) (d : Nat) (M : Type) where
  step : Nat := 0
  isFitted : Bool := false
  isError : Bool := false
  elitist : Option (Elitist K d M) := none
  pool : List (Rule K d M) := []
  cleaned : Bool := false

/-- Training data as passed by the user. `finite` is the outcome of the checks of the values: finite numbers and at least one feature. (suprb/suprb.py:124, 153) -/
structure RawData (K : Type) (d : Nat) where
  X : List (Point K d)
  y : List K
  finite : Bool := true

/-- `check_X_y`, `check_array` (suprb/suprb.py:153-154): consistent lengths, at least one sample, finite numbers. -/
def RawData.check (r : RawData K d) : Except PyErr (List (Point K d) × List K) :=
  if r.finite ∧ r.X.length = r.y.length ∧ r.X ≠ [] then .ok (r.X, r.y) else .error .valueError

/-- Result of `fit`: the object afterwards, what was observable on the way, and the exception if one escapes. (suprb/suprb.py:124-215) -/
structure FitResult (K : Type) (d : Nat) (M : Type) where
  state : SupState K d M
  trace : List (Event K d M)
  raised : Option PyErr

/-- suprb/suprb.py:206-215: the end of a completed run. -/
def finishFit (st : SupState K d M) (doCleanup : Bool) (s : RunState K d M) : FitResult K d M :=
  let st := { st with step := s.step, pool := s.pool }
  match s.comp.elitist with
  | .error e => ⟨st, s.trace, some e⟩
  | .ok none => ⟨st, s.trace, some .attributeError⟩
  | .ok (some el) =>
    match el.clone with
    | .error e => ⟨st, s.trace, some e⟩
    | .ok b =>
      let σ : Solution K d M := { genome := b.genome, pool := s.pool, st := b.st }
      let st := { st with elitist := some (.solution σ), isFitted := true }
      if doCleanup then
        match cleanup σ with
        | .error e => ⟨st, s.trace, some e⟩
        | .ok τ => ⟨{ st with elitist := some (.solution τ), pool := τ.pool, cleaned := true }, s.trace, none⟩
      else ⟨st, s.trace, none⟩

/-- suprb/suprb.py:186-204: initial rules and main loop. -/
def runFit (cfg : SupCfg K) (c : SupComp K d M) (ev : PoolEval K d M) (entropy : Nat) (X : List (Point K d)) (y : List K) (step0 : Nat) :
    Outcome K d M :=
  let s : RunState K d M := { step := step0, comp := { archive := if cfg.useArchive then some [] else none } }
  if 0 < cfg.nInitial then
    match discoverStep cfg c entropy X y cfg.nInitial s with
    | (s', some _) => .caught s'
    | (s', none) => fitLoop cfg c ev entropy X y (List.range cfg.nIter) s'
  else fitLoop cfg c ev entropy X y (List.range cfg.nIter) s

/-- suprb/suprb.py:124-215 `fit` for an arbitrary evaluation of solutions (data and pool to evaluation). `entropy` is the integer `random_state` (or what the
operating system supplies for `None`). -/
def SupState.fitWith (cfg : SupCfg K) (c : SupComp K d M) (ev : List (Point K d) → List K → PoolEval K d M) (entropy : Nat)
    (raw : RawData K d) (doCleanup : Bool) (st0 : SupState K d M) : FitResult K d M :=
  let st := { st0 with isError := false, elitist := some .placeholder }
  match raw.check with
  | .error e => ⟨st, [], some e⟩
  | .ok (X, y) =>
    let st := { st with pool := [], cleaned := false }
    match runFit cfg c (ev X y) entropy X y st0.step with
    | .caught s => ⟨{ st with isFitted := true, isError := true, pool := s.pool, step := s.step }, s.trace, none⟩
    | .raised s e => ⟨{ st with pool := s.pool, step := s.step }, s.trace, some e⟩
    | .done s => finishFit st doCleanup s

/-- suprb/suprb.py:124-215 `fit`. -/
def SupState.fit (cfg : SupCfg K) (c : SupComp K d M) (entropy : Nat) (raw : RawData K d) (doCleanup : Bool) (st0 : SupState K d M) :
    FitResult K d M := st0.fitWith cfg c (runEval cfg c) entropy raw doCleanup

/-- suprb/suprb.py:274-283 `predict`. The placeholder has no rules and its mixing model therefore predicts zeros
(suprb/solution/mixing_model.py:90-92). -/
def SupState.predict (c : SupComp K d M) (st : SupState K d M) (Xq : List (Point K d)) : Except PyErr (List K) :=
  if st.isFitted = false then .error .valueError
  else if Xq = [] then .error .valueError
  else if st.isError then .ok (List.replicate Xq.length 0)
  else match st.elitist with
    | none => .error .attributeError
    | some .placeholder => .ok (List.replicate Xq.length 0)
    | some (.solution σ) => σ.predict c.learner c.mix c.filter false Xq

end Suprb
