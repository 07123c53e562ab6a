import Verif.Model.SupRB
import Verif.Model.ES
import Verif.Model.Origin
import Verif.Model.Utils
import Verif.Model.Fitness

/-!
# Model of the default components of `SupRB` (suprb/suprb.py:168-175)

Rule discovery by the evolution strategy with matching origins and bounds estimated from the data, composition by the genetic algorithm with tournament selection.
The random numbers of a run are functions of the seed of the call, of what happened before in the run, and of the arguments of the draw.
-/

set_option autoImplicit false

namespace Suprb

open Spec

variable {K : Type} [Field K] [LinearOrder K] {d : Nat} {M : Type}

/-- `random_state.choice(np.arange(N), n, p=probs)` (suprb/optimizer/rule/origin.py:75) where `idx` are the drawn indices. numpy raises `ValueError` if there is nothing to draw
from, if the probabilities have the wrong length, if one is negative, and if they do not sum to one (exact numbers here, a tolerance in numpy). -/
def rngChoice (N n : Nat) (probs : Option (List K)) (idx : List Nat) : Except PyErr (List Nat) :=
  if N = 0 ∧ n ≠ 0 then .error .valueError
  else match probs with
    | none => .ok idx
    | some p => if p.length ≠ N ∨ p.any (fun q => decide (q < 0)) = true ∨ p.sum ≠ 1 then .error .valueError else .ok idx

/-- `X[indices]` (suprb/optimizer/rule/origin.py:76). -/
def takeRows {α : Type} (X : List α) (idx : List Nat) : Except PyErr (List α) :=
  idx.mapM fun i => match X[i]? with
    | none => .error .indexError
    | some x => .ok x

/-- suprb/optimizer/rule/origin.py:52-76 `RouletteWheelOrigin.__call__` for `Matching`: `draw probs` are the indices numpy returns. The elitist refers to the same pool. -/
def matchingOrigins (useElitist : Bool) (X : List (Point K d)) (pool : List (Rule K d M)) (elitist : Option (Indiv K)) (n : Nat)
    (draw : Option (List K) → List Nat) : Except PyErr (List (Point K d)) :=
  match matchingProbabilities useElitist X.length pool (elitist.map fun σ => { genome := σ.genome, pool := pool, st := σ.st }) with
  | .error e => .error e
  | .ok probs =>
    match rngChoice X.length n probs (draw probs) with
    | .error e => .error e
    | .ok idx => takeRows X idx

/-- Parameters of `ES1xLambda` (suprb/optimizer/rule/es/es.py:51-65) with `MeanInit`, `Fittest`, `CombinedConstraint(MinRange(minRange), Clip())`, `Variance(beta)` and
`Matching(use_elitist)`. -/
structure ESCfg (K : Type) where
  nIter : Nat
  lmbda : Nat
  operator : ESOperator
  delay : Nat
  mutation : Mutation
  minRange : K
  beta : K
  useElitist : Bool

/-- suprb/optimizer/rule/base.py:75-99 `optimize` of the evolution strategy, with ordered bounds (suprb/suprb.py:170) and the bounds of initialisation and clipping estimated from the data
(suprb/suprb.py:312-318; done once at the start of `fit`, with the same data). `draw` are the drawn origins, `children k g c` the draws of the mutation for child `c` of
generation `g` of rule `k`. -/
def esDiscover (cfg : ESCfg K) (L : Learner K d M) (ff : RuleFitness K d) (draw : Option (List K) → List Nat) (children : Nat → Nat → Nat → Pairs K d)
    (elitist : Option (Indiv K)) (pool : List (Rule K d M)) (X : List (Point K d)) (y : List K) (n : Nat) : Except PyErr (List (Rule K d M)) :=
  match estimateBounds X with
  | .error e => .error e
  | .ok fb =>
    match matchingOrigins cfg.useElitist X pool elitist n draw with
    | .error e => .error e
    | .ok origins =>
      discoverRules (initialRule L ff X y .ordered cfg.minRange fb fb)
        (fun ρ gens => (esOptimize (concreteES L ff X y cfg.operator cfg.delay cfg.mutation cfg.minRange fb) gens ρ).map some)
        (acceptVariance cfg.beta y) origins
        ((List.range n).map fun k => (List.range cfg.nIter).map fun g => ((List.range cfg.lmbda).map (children k g), ()))

/-- All random numbers of a run with the default components. (suprb/suprb.py:249, 269; suprb/optimizer/rule/base.py:76-90; suprb/optimizer/solution/base.py:94-106) -/
structure RunDraws (K : Type) (d : Nat) (M : Type) where
  origins : Seed → List (Event K d M) → (samples n : Nat) → Option (List K) → List Nat
  children : Seed → List (Event K d M) → (rule generation child : Nat) → Pairs K d
  ga : Seed → List (Event K d M) → (poolSize populationSize : Nat) → List (GADraw K)
  init : Seed → Nat → Nat → K

/-- The default components (suprb/suprb.py:168-169) for given parameters. Mixing is `ErrorExperienceHeuristic()` with the filter that keeps all rules
(suprb/solution/mixing_model.py:13-14, 76-81). -/
def defaultComp (es : ESCfg K) (ga : GACfg K) (D : RunDraws K d M) (L : Learner K d M) (ff : RuleFitness K d) (sf : Nat → SolFitness K) : SupComp K d M where
  discover := fun seed hist el pool X y n => esDiscover es L ff (D.origins seed hist X.length n) (D.children seed hist) el pool X y n
  strategy := fun seed hist n ev pop => gaOptimize ga (D.ga seed hist n pop.length) n ev pop
  initDraw := D.init
  learner := L
  mix := ⟨.plain, 1⟩
  filter := filterAll
  fitness := sf

/-- suprb/optimizer/rule/es/es.py:51-65: the default values, `MinRange(1e-6)` (suprb/optimizer/rule/constraint.py:53), `Variance(beta=1)` (suprb/optimizer/rule/acceptance.py:33). -/
def ESCfg.default : ESCfg K :=
  { nIter := 10000, lmbda := 20, operator := .amp, delay := 146, mutation := .halfnormIncrease, minRange := 1 / 1000000, beta := 1, useElitist := true }

/-- suprb/optimizer/solution/ga/base.py:37-50: the default values; `int(32 * 0.17) = 5` elitists. -/
def GACfg.default : GACfg K := { populationSize := 32, nElitists := 5, crossRate := 9 / 10, mutRate := 1 / 1000 }

/-- suprb/suprb.py:80-94: the default values with the default composition (`RandomInit(p=0.5)`, warm start, `Elitist` archive). -/
def SupCfg.default : SupCfg K :=
  { nIter := 32, nInitial := 0, nRules := 4, patience := -1, delta := 0, useArchive := true,
    comp := { populationSize := 32, warmStart := true, init := .random (1 / 2) } }

/-- `VolumeWu(alpha=0.05)`, the default rule fitness (suprb/rule/initialization.py:45, suprb/rule/fitness.py:57-66). NaN is represented by `nan`. -/
noncomputable def volumeWu (nan : ℝ) : RuleFitness ℝ d := fun e k b sp =>
  match volumeFitness .wu 0.05 k b sp e with
  | .ok (some v) => v
  | _ => nan

/-- `ComplexityWu(alpha=0.3)`, the default solution fitness (suprb/solution/initialization.py:32, suprb/solution/fitness.py:53-62). NaN and errors are represented by `nan`. -/
noncomputable def complexityWu (nan : ℝ) (maxGenomeLength : Nat) : SolFitness ℝ := fun e _ c =>
  match complexityFitness .wu 0.3 maxGenomeLength e c with
  | .ok (some v) => v
  | _ => nan

end Suprb
