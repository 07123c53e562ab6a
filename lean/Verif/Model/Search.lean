import Verif.Model.Default
import Verif.Model.Selection
import Verif.Model.Novelty

/-!
# Model of all origin strategies (suprb/optimizer/rule/origin.py), of rule discovery by random search (suprb/optimizer/rule/rs/rs.py) and novelty search (suprb/optimizer/rule/ns/ns.py), and of the random state of a fit (suprb/utils.py:10-32)
-/

set_option autoImplicit false

namespace Suprb

open Spec

variable {K : Type} [Field K] [LinearOrder K] {d : Nat} {M : Type}

/-- `random_state.choice(np.arange(len(X)), n, p=probs)` and `X[indices]` (suprb/optimizer/rule/origin.py:75-76); also `random_state.choice(X, axis=0, size=n)` (39), which draws the rows in the
same way. `draw probs` are the indices numpy returns. -/
def drawRows (X : List (Point K d)) (n : Nat) (probs : Option (List K)) (draw : Option (List K) → List Nat) : Except PyErr (List (Point K d)) :=
  match rngChoice X.length n probs (draw probs) with
  | .error e => .error e
  | .ok idx => takeRows X idx

/-- The strategies of suprb/optimizer/rule/origin.py: `UniformInputOrigin` (28-32), `UniformSamplesOrigin` (35-39), `Matching` (82-86), `SquaredError` (89-101). (suprb/optimizer/rule/origin.py:28-39, 82-101) -/
inductive OriginStrategy
  | uniformInput
  | uniformSamples
  | matching (useElitist : Bool)
  | squaredError (useElitist : Bool)

/-- `random_state.uniform(np.min(X, axis=0), np.max(X, axis=0), size=(n_rules, X.shape[1]))` (suprb/optimizer/rule/origin.py:32); `u k i` are the numbers of the generator in `[0, 1)`, numpy returns
`low + (high - low) * u`. `np.min` of no samples is a `ValueError`. -/
def uniformInput (X : List (Point K d)) (n : Nat) (u : Nat → Point K d) : Except PyErr (List (Point K d)) :=
  match estimateBounds X with
  | .error e => .error e
  | .ok fb => .ok ((List.range n).map fun k i => (fb i).1 + ((fb i).2 - (fb i).1) * u k i)

/-- `__call__` of the origin strategies (suprb/optimizer/rule/origin.py:31-32, 38-39, 52-76). The elitist refers to the same pool; `P` and `filt` are its mixing model. -/
def originsOf (s : OriginStrategy) (L : Learner K d M) (P : MixParams K) (filt : SubFilter K d M) (X : List (Point K d)) (y : List K) (pool : List (Rule K d M))
    (elitist : Option (Indiv K)) (n : Nat) (draw : Option (List K) → List Nat) (u : Nat → Point K d) : Except PyErr (List (Point K d)) :=
  let el : Option (Solution K d M) := elitist.map fun σ => { genome := σ.genome, pool := pool, st := σ.st }
  match s with
  | .uniformInput => uniformInput X n u
  | .uniformSamples => drawRows X n none draw
  | .matching useElitist =>
    match matchingProbabilities useElitist X.length pool el with
    | .error e => .error e
    | .ok probs => drawRows X n probs draw
  | .squaredError useElitist =>
    match squaredErrorProbabilities L P filt useElitist X y pool el with
    | .error e => .error e
    | .ok probs => drawRows X n probs draw

/-- Parameters of `RandomSearch` (suprb/optimizer/rule/rs/rs.py:43-65) with `HalfnormInit`, `Fittest`, `Variance(beta)`, `CombinedConstraint(MinRange(minRange), Clip())`. `n_iter` is not used. -/
structure RSCfg (K : Type) where
  rulesGenerated : Nat
  origin : OriginStrategy
  minRange : K
  beta : K

/-- suprb/optimizer/rule/rs/rs.py:43-53: the default values. -/
def RSCfg.default : RSCfg K := { rulesGenerated := 7, origin := .squaredError true, minRange := 1 / 1000000, beta := 1 }

/-- suprb/optimizer/rule/rs/rs.py:91-92: initialise a rule at the origin (half-normal draws `h`), constrain and fit it. -/
def rsRule (cfg : RSCfg K) (L : Learner K d M) (ff : RuleFitness K d) (X : List (Point K d)) (y : List K) (fb : Pairs K d) (h : Pairs K d) (origin : Point K d) :
    Except PyErr (Rule K d M) :=
  match halfnormInit .ordered origin h with
  | .error e => .error e
  | .ok b => Rule.fit L ff X y { kind := .ordered, bounds := constrain .ordered cfg.minRange fb b, inputSpace := fb }

/-- The random numbers of one call of `RandomSearch.optimize`: for every group the drawn indices (or uniform numbers) of the origins, and the half-normal draws of every rule. (suprb/optimizer/rule/rs/rs.py:55-80) -/
structure RSDraws (K : Type) (d : Nat) where
  origins : Nat → Option (List K) → List Nat
  uniform : Nat → Nat → Point K d
  init : Nat → Nat → Pairs K d

/-- suprb/optimizer/rule/rs/rs.py:79-92: the rules of group `g`. -/
def rsGroup (cfg : RSCfg K) (L : Learner K d M) (ff : RuleFitness K d) (P : MixParams K) (filt : SubFilter K d M) (D : RSDraws K d) (elitist : Option (Indiv K))
    (pool : List (Rule K d M)) (X : List (Point K d)) (y : List K) (fb : Pairs K d) (g : Nat) : Except PyErr (List (Rule K d M)) :=
  match originsOf cfg.origin L P filt X y pool elitist cfg.rulesGenerated (D.origins g) (D.uniform g) with
  | .error e => .error e
  | .ok origins => (origins.zip (List.range origins.length)).mapM fun p => rsRule cfg L ff X y fb (D.init g p.2) p.1

/-- suprb/optimizer/rule/rs/rs.py:67-96 `RandomSearch.optimize`, with ordered bounds and the bounds of the data as in `esDiscover`. (The code alternates between creating and selecting the
rules of a group; here all groups are created before the selections, which makes no difference to results and, with the same draws, to whether there is an error.) -/
def rsDiscover (cfg : RSCfg K) (L : Learner K d M) (ff : RuleFitness K d) (P : MixParams K) (filt : SubFilter K d M) (D : RSDraws K d) (elitist : Option (Indiv K))
    (pool : List (Rule K d M)) (X : List (Point K d)) (y : List K) (n : Nat) : Except PyErr (List (Rule K d M)) :=
  match estimateBounds X with
  | .error e => .error e
  | .ok fb =>
    match (List.range n).mapM (rsGroup cfg L ff P filt D elitist pool X y fb) with
    | .error e => .error e
    | .ok groups => randomSearch (fun rules _ => ruleFittest rules 1) (acceptVariance cfg.beta y) (groups.map fun g => (g, ()))

/-- Components of a model with random search as rule discovery and the genetic algorithm as composition; the mixing model as in `defaultComp`. (suprb/suprb.py:168-169) -/
def rsComp (rs : RSCfg K) (ga : GACfg K) (R : Seed → List (Event K d M) → RSDraws K d) (D : RunDraws K d M) (L : Learner K d M) (ff : RuleFitness K d) (sf : Nat → SolFitness K) :
    SupComp K d M where
  discover := fun seed hist el pool X y n => rsDiscover rs L ff ⟨.plain, 1⟩ filterAll (R seed hist) el pool X y n
  strategy := fun seed hist n ev pop => gaOptimize ga (D.ga seed hist n pop.length) n ev pop
  initDraw := D.init
  learner := L
  mix := ⟨.plain, 1⟩
  filter := filterAll
  fitness := sf

/-! ### Novelty search as rule discovery -/

/-- Parameters of `NoveltySearch` (suprb/optimizer/rule/ns/ns.py:57-98) with `HalfnormInit`, `UniformCrossover(crossover_rate=rate)`, `Variance(beta)` and `CombinedConstraint(MinRange(minRange), Clip())`;
those of the search itself are in `ns`. `n_iter` and the selection operator are part of the draws. The assertion in `__init__` (ns.py:96-98) is `Comp.nsCheck`. -/
structure NSParams (K : Type) where
  ns : NsCfg K
  lmbda : Nat
  origin : OriginStrategy
  mutation : Mutation
  rate : K
  minRange : K
  beta : K

/-- suprb/optimizer/rule/ns/ns.py:57-75, suprb/optimizer/rule/ns/novelty_calculation.py:10-15, suprb/optimizer/rule/crossover.py:11: the default values. -/
def NSParams.default : NSParams K :=
  { ns := { mu := 16, roh := 15, nElitists := 10, usePopulation := false, variant := .basic, type := .plain, k := 15 }, lmbda := 160, origin := .squaredError true, mutation := .normal,
    rate := 1 / 5, minRange := 1 / 1000000, beta := 1 }

/-- The settings that the creation of the initial population uses (suprb/optimizer/rule/ns/ns.py:142-153), which is the same as that of a group of rules of random search. -/
def NSParams.start (p : NSParams K) : RSCfg K := { rulesGenerated := p.ns.mu, origin := p.origin, minRange := p.minRange, beta := p.beta }

/-- The random numbers of one call of `NoveltySearch.optimize`, and the attributes that earlier calls left on the rules of the pool: `distances_` (suprb/optimizer/rule/ns/ns.py:189-199 deletes `distance_` instead) and `idx_`. -/
structure NSDraws (K : Type) (d : Nat) (M : Type) where
  origins : Option (List K) → List Nat
  uniform : Nat → Point K d
  init : Nat → Pairs K d
  iterations : List (NsDraw (Rule K d M) (BreedDraw K d))
  leftover : Nat → List K × Option Nat

/-- `deepcopy(self.pool_)` (suprb/optimizer/rule/ns/ns.py:108). -/
def poolObjects (leftover : Nat → List K × Option Nat) (pool : List (Rule K d M)) : Store (Rule K d M) K :=
  (pool.zip (List.range pool.length)).map fun p => { rule := p.1, distances := some (leftover p.2).1, idx := (leftover p.2).2 }

/-- suprb/optimizer/rule/ns/ns.py:100-112 `NoveltySearch.optimize`, with ordered bounds and the bounds of the data as in `esDiscover`. -/
def nsDiscover (p : NSParams K) (L : Learner K d M) (ff : RuleFitness K d) (P : MixParams K) (filt : SubFilter K d M) (D : NSDraws K d M) (elitist : Option (Indiv K))
    (pool : List (Rule K d M)) (X : List (Point K d)) (y : List K) (n : Nat) : Except PyErr (List (Rule K d M)) :=
  match estimateBounds X with
  | .error e => .error e
  | .ok fb =>
    match rsGroup p.start L ff P filt ⟨fun _ => D.origins, fun _ => D.uniform, fun _ => D.init⟩ elitist pool X y fb 0 with
    | .error e => .error e
    | .ok initial =>
      nsOptimize ruleView p.ns (breedRules L ff X y p.mutation p.minRange p.rate fb) validRule (acceptVariance p.beta y) n (poolObjects D.leftover pool) initial D.iterations

/-- Components of a model with novelty search as rule discovery and the genetic algorithm as composition; the mixing model as in `defaultComp`. (suprb/suprb.py:168-169) -/
def nsComp (p : NSParams K) (ga : GACfg K) (S : Seed → List (Event K d M) → NSDraws K d M) (D : RunDraws K d M) (L : Learner K d M) (ff : RuleFitness K d) (sf : Nat → SolFitness K) :
    SupComp K d M where
  discover := fun seed hist el pool X y n => nsDiscover p L ff ⟨.plain, 1⟩ filterAll (S seed hist) el pool X y n
  strategy := fun seed hist n ev pop => gaOptimize ga (D.ga seed hist n pop.length) n ev pop
  initDraw := D.init
  learner := L
  mix := ⟨.plain, 1⟩
  filter := filterAll
  fitness := sf

/-! ### The random state -/

/-- Values of the parameter `random_state`: `None`, integers, `SeedSequence`, `RandomState` and `Generator` objects, anything else. (suprb/utils.py:26-32) -/
inductive RandomArg
  | none
  | int (z : Int)
  | seedSequence (entropy : Nat)
  | randomState
  | generator
  | other
  deriving DecidableEq

/-- suprb/utils.py:10-32 `check_random_state`. `np.random.default_rng` rejects negative integers (`ValueError`); `RandomState` objects have no public attribute `bit_generator`
(`AttributeError`). -/
def checkRandomState : RandomArg → Except PyErr Unit
  | .none => .ok ()
  | .int z => if z < 0 then .error .valueError else .ok ()
  | .seedSequence _ => .ok ()
  | .randomState => .error .attributeError
  | .generator => .ok ()
  | .other => .error .valueError

/-- `np.random.SeedSequence(self.random_state)` (suprb/suprb.py:161): the entropy, `fresh` if it comes from the operating system. Only `None` and non-negative integers (or sequences of them) are
accepted, everything else is a `TypeError`, negative integers a `ValueError`. -/
def seedEntropy (fresh : Nat) : RandomArg → Except PyErr Nat
  | .none => .ok fresh
  | .int z => if z < 0 then .error .valueError else .ok z.toNat
  | _ => .error .typeError

/-- suprb/suprb.py:124-215 `fit` with the parameter `random_state`: lines 160-161 are executed after the validation of the data and outside of `_catch_errors`. -/
def SupState.fitRandom (cfg : SupCfg K) (c : SupComp K d M) (arg : RandomArg) (fresh : Nat) (raw : RawData K d) (doCleanup : Bool) (st0 : SupState K d M) : FitResult K d M :=
  let st := { st0 with isError := false, elitist := some .placeholder }
  match raw.check with
  | .error e => ⟨st, [], some e⟩
  | .ok _ =>
    match checkRandomState arg with
    | .error e => ⟨st, [], some e⟩
    | .ok _ =>
      match seedEntropy fresh arg with
      | .error e => ⟨st, [], some e⟩
      | .ok entropy => st0.fit cfg c entropy raw doCleanup

end Suprb
