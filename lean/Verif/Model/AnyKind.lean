import Verif.Model.Default
import Verif.Model.Config

/-!
# Model of training with the evolution strategy for every matching type, initialisation and mutation

`suprb/suprb.py:173-215` with `ES1xLambda` (`suprb/optimizer/rule/es/es.py`) configured with any of the components of `suprb/rule/matching.py`, `suprb/rule/initialization.py` and
`suprb/optimizer/rule/mutation.py`.
-/

set_option autoImplicit false

namespace Suprb

open Spec

variable {K : Type} [Field K] [LinearOrder K] {d : Nat} {M : Type}

/-- Parameters of `ES1xLambda` (suprb/optimizer/rule/es/es.py:51-65) with `Fittest`, `CombinedConstraint(MinRange(minRange), Clip())`, `Variance(beta)` and `Matching(use_elitist)`, any
initialisation and any mutation, and the `matching_type` of the model (suprb/suprb.py:92, 320-323). -/
structure KindCfg (K : Type) where
  nIter : Nat
  lmbda : Nat
  operator : ESOperator
  delay : Nat
  minRange : K
  beta : K
  useElitist : Bool
  kind : Kind
  init : InitCfg
  mutation : MutationCfg

/-- suprb/optimizer/rule/base.py:88-91: `self.constraint(self.init(mean=origin)).fit(X, y)`, for every initialisation; `o.2` are the draws. (suprb/rule/initialization.py:63-90) -/
def kindInitial (cfg : KindCfg K) (L : Learner K d M) (ff : RuleFitness K d) (X : List (Point K d)) (y : List K) (fb : Pairs K d) (o : Point K d × Pairs K d) :
    Except PyErr (Rule K d M) :=
  match initWith cfg.init cfg.kind o.1 o.2 with
  | .error e => .error e
  | .ok b => Rule.fit L ff X y { kind := cfg.kind, bounds := constrain cfg.kind cfg.minRange fb b, inputSpace := fb }

/-- suprb/optimizer/rule/es/es.py:108-110: `self.constraint(self.mutation(elitist)).fit(X, y)`, for every mutation object; the mutation works on a clone
(suprb/optimizer/rule/mutation.py:24). -/
def kindChild (cfg : KindCfg K) (o : OperatorObj) (L : Learner K d M) (ff : RuleFitness K d) (X : List (Point K d)) (y : List K) (fb : Pairs K d) (ρ : Rule K d M) (z : Pairs K d) :
    Except PyErr (Rule K d M) :=
  match callMutation cfg.mutation o z ρ.bounds with
  | .error e => .error e
  | .ok b => Rule.fit L ff X y { ρ.clone with bounds := constrain ρ.kind cfg.minRange fb b }

/-- The evolution strategy with these children and fittest selection. (suprb/optimizer/rule/es/es.py:91-137) -/
def kindES (cfg : KindCfg K) (o : OperatorObj) (L : Learner K d M) (ff : RuleFitness K d) (X : List (Point K d)) (y : List K) (fb : Pairs K d) :
    ESParams (Rule K d M) (Pairs K d) Unit (WithBot K) where
  operator := cfg.operator
  delay := cfg.delay
  child := kindChild cfg o L ff X y fb
  valid := validRule
  fitness := ruleFitnessOf
  select := fun l _ => fittestFirst ruleFitnessOf l

/-- suprb/optimizer/rule/base.py:75-99 `optimize` of the evolution strategy; `o` is the mutation object, `inits k` are the draws of the initialisation of rule `k`, the rest is as in
`esDiscover`. The bounds of initialisation and clipping are those of the data (suprb/suprb.py:312-318). -/
def kindDiscover (cfg : KindCfg K) (o : OperatorObj) (L : Learner K d M) (ff : RuleFitness K d) (draw : Option (List K) → List Nat) (inits : Nat → Pairs K d)
    (children : Nat → Nat → Nat → Pairs K d) (elitist : Option (Indiv K)) (pool : List (Rule K d M)) (X : List (Point K d)) (y : List K) (n : Nat) :
    Except PyErr (List (Rule K d M)) :=
  match estimateBounds X with
  | .error e => .error e
  | .ok fb =>
    match matchingOrigins cfg.useElitist X pool elitist n draw with
    | .error e => .error e
    | .ok origins =>
      discoverRules (kindInitial cfg L ff X y fb) (fun ρ gens => (esOptimize (kindES cfg o L ff X y fb) gens ρ).map some) (acceptVariance cfg.beta y)
        (origins.zip ((List.range n).map inits))
        ((List.range n).map fun k => (List.range cfg.nIter).map fun g => ((List.range cfg.lmbda).map (children k g), ()))

/-- The components of a model with this rule discovery, the genetic algorithm and the default mixing model (suprb/suprb.py:168-170). -/
def kindComp (cfg : KindCfg K) (o : OperatorObj) (ga : GACfg K) (D : RunDraws K d M) (inits : Seed → List (Event K d M) → Nat → Pairs K d) (L : Learner K d M) (ff : RuleFitness K d)
    (sf : Nat → SolFitness K) : SupComp K d M where
  discover := fun seed hist el pool X y n => kindDiscover cfg o L ff (D.origins seed hist X.length n) (inits seed hist) (D.children seed hist) el pool X y n
  strategy := fun seed hist n ev pop => gaOptimize ga (D.ga seed hist n pop.length) n ev pop
  initDraw := D.init
  learner := L
  mix := ⟨.plain, 1⟩
  filter := filterAll
  fitness := sf

/-- suprb/suprb.py:124-215 `fit` of a model with these components: after the checks of the data (153-154) the matching type of the mutation is set (175, 320-323), outside of
`_catch_errors`; then training goes on with the configured mutation object. (A mutation given without matching type; its constructor, suprb/optimizer/rule/mutation.py:15-21, was called before.) -/
def kindFit (cfg : SupCfg K) (es : KindCfg K) (ga : GACfg K) (D : RunDraws K d M) (inits : Seed → List (Event K d M) → Nat → Pairs K d) (L : Learner K d M) (ff : RuleFitness K d)
    (sf : Nat → SolFitness K) (entropy : Nat) (raw : RawData K d) (doCleanup : Bool) (st0 : SupState K d M) : FitResult K d M :=
  match raw.check with
  | .error e => ⟨{ st0 with isError := false, elitist := some .placeholder }, [], some e⟩
  | .ok _ =>
    match (newMutation none es.mutation.sigma).bind fun o => o.setMatching (some es.kind) with
    | .error e => ⟨{ st0 with isError := false, elitist := some .placeholder, pool := [], cleaned := false }, [], some e⟩
    | .ok o => st0.fit cfg (kindComp es o ga D inits L ff sf) entropy raw doCleanup

end Suprb
