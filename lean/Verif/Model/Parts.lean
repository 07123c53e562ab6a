import Verif.Model.AnyKind
import Verif.Model.Search
import Verif.Model.Swarm
import Verif.Model.Saga
import Verif.Model.Aco

/-!
# Model of training with any rule discovery, any solution composition and any mixing model

`suprb/suprb.py:80-106` takes the parameters `rule_discovery` and `solution_composition` independently of each other; `fit` (124-215) uses whichever is given. The mixing model is that of the
`init` of the composition (suprb/solution/initialization.py:28-32, 50, 75).
-/

set_option autoImplicit false

namespace Suprb

open Spec

variable {K : Type} [Field K] [LinearOrder K] {d : Nat} {M : Type}

/-- The rule discovery methods with their parameters and random numbers, which depend on the seed and on what happened before in the run: the evolution strategy
(suprb/optimizer/rule/es/es.py:51-76; origins, initialisations, mutations), random search (suprb/optimizer/rule/rs/rs.py:41-64) and novelty search
(suprb/optimizer/rule/ns/ns.py:57-98). -/
inductive DiscoveryPart (K : Type) (d : Nat) (M : Type)
  | es (cfg : KindCfg K) (origins : Seed → List (Event K d M) → (samples n : Nat) → Option (List K) → List Nat) (inits : Seed → List (Event K d M) → Nat → Pairs K d)
    (children : Seed → List (Event K d M) → Nat → Nat → Nat → Pairs K d)
  | rs (cfg : RSCfg K) (draws : Seed → List (Event K d M) → RSDraws K d)
  | ns (cfg : NSParams K) (draws : Seed → List (Event K d M) → NSDraws K d M)

/-- `self.rule_discovery_.optimize(X, y, n_rules)` (suprb/suprb.py:252). The mixing model `P` is used by squared-error origins (suprb/optimizer/rule/origin.py:92-101). The mutation of the evolution
strategy has been told the matching type. (suprb/suprb.py:320-323) -/
def DiscoveryPart.discover (D : DiscoveryPart K d M) (L : Learner K d M) (ff : RuleFitness K d) (P : MixParams K) (seed : Seed) (hist : List (Event K d M)) (el : Option (Indiv K))
    (pool : List (Rule K d M)) (X : List (Point K d)) (y : List K) (n : Nat) : Except PyErr (List (Rule K d M)) :=
  match D with
  | .es cfg origins inits children =>
    kindDiscover cfg ⟨some cfg.mutation.sigma, some cfg.kind⟩ L ff (origins seed hist X.length n) (inits seed hist) (children seed hist) el pool X y n
  | .rs cfg draws => rsDiscover cfg L ff P filterAll (draws seed hist) el pool X y n
  | .ns cfg draws => nsDiscover cfg L ff P filterAll (draws seed hist) el pool X y n

/-- The composition methods with their parameters and random numbers (suprb/optimizer/solution/ga/base.py:66-107, suprb/optimizer/solution/rs/base.py:50-58,
suprb/optimizer/solution/gwo/base.py:58-79, suprb/optimizer/solution/pso/base.py:67-89, suprb/optimizer/solution/saga1/base.py:90-145,
suprb/optimizer/solution/saga3/base.py:71-110, suprb/optimizer/solution/aco/base.py:77-116, suprb/optimizer/solution/abc/base.py:76-113). -/
inductive CompositionPart (K : Type) (d : Nat) (M : Type)
  | ga (cfg : GACfg K) (draws : Seed → List (Event K d M) → (poolSize size : Nat) → List (GADraw K))
  | rs (init : InitOp K) (populationSize nIter : Nat) (draws : Seed → List (Event K d M) → Nat → Nat → Nat → K)
  | gwo (upd : WolfUpdate) (sig : K → K) (nLeaders : Nat) (draws : Seed → List (Event K d M) → List (Nat → WolfDraw K))
  | pso (m : Movement K) (sig : K → K) (aMin aMax : K) (init : Seed → List (Event K d M) → Nat → (Nat → K) × (Nat → K))
    (draws : Seed → List (Event K d M) → (poolSize size : Nat) → List (PSODraw K))
  | saga1 (cfg : Saga1Cfg K) (draws : Seed → List (Event K d M) → (poolSize size : Nat) → List (GADraw K)) (rates : Seed → List (Event K d M) → Rates K)
  | saga3 (cfg : Saga3Cfg K) (draws : Seed → List (Event K d M) → (poolSize size : Nat) → List (Saga3GenDraw K)) (par : Seed → List (Event K d M) → Nat → K × K × CrossMethod)
  | aco (cfg : AcoCfg K) (warm : Bool) (pool : Seed → List (Event K d M) → Nat → AntPool K) (old : Seed → List (Event K d M) → Nat → Option (Pheromones K))
    (draws : Seed → List (Event K d M) → List (Nat → AntDraw K))
  | abc (sig : K → K) (init : InitOp K) (limit : Nat) (draws : Seed → List (Event K d M) → (poolSize size : Nat) → List (ABCDraw K))

/-- `_optimize` of the composition method (suprb/optimizer/solution/base.py:88-120). The rates of saga1, the parameters of the solutions of saga3 and the pheromones of the ants are attributes kept from
the calls before, the pool of the ants is the pool of the model; they are functions of the history here. -/
def CompositionPart.strategy (C : CompositionPart K d M) (seed : Seed) (hist : List (Event K d M)) : Strategy K :=
  match C with
  | .ga cfg draws => fun n ev pop => gaOptimize cfg (draws seed hist n pop.length) n ev pop
  | .rs init populationSize nIter draws => Prog.strategy fun n pop => Suprb.rs init populationSize nIter (draws seed hist) n pop
  | .gwo upd sig nLeaders draws => Prog.strategy fun _ pop => Suprb.gwo upd sig nLeaders (draws seed hist) pop
  | .pso m sig aMin aMax init draws => Prog.strategy fun n pop =>
    (Suprb.pso m sig aMin aMax (init seed hist) (draws seed hist n pop.length) pop).bind fun s => .ret (s.particles.map Particle.sol)
  | .saga1 cfg draws rates => Prog.strategy fun n pop => (Suprb.saga1 cfg (draws seed hist n pop.length) (rates seed hist) pop).bind fun s => .ret s.pop
  | .saga3 cfg draws par => Prog.strategy fun n pop =>
    (Suprb.saga3 cfg (draws seed hist n pop.length) (pop.mapIdx fun i σ => ⟨σ, (par seed hist i).1, (par seed hist i).2.1, (par seed hist i).2.2⟩)).bind fun s =>
      .ret (s.pop.map SagaObj.indiv)
  | .aco cfg warm pool old draws => Prog.strategy fun n pop =>
    (Suprb.aco cfg warm (old seed hist n) (pool seed hist n) (draws seed hist) pop).bind fun s => .ret s.pop
  | .abc sig init limit draws => Prog.strategy fun n pop => (Suprb.abc sig init limit (draws seed hist n pop.length) n pop).bind fun s => .ret (s.map Food.sol)

/-- The components of a model (suprb/suprb.py:168-170) with the given rule discovery, composition and mixing model. -/
def partsComp (D : DiscoveryPart K d M) (C : CompositionPart K d M) (P : MixParams K) (init : Seed → Nat → Nat → K) (L : Learner K d M) (ff : RuleFitness K d) (sf : Nat → SolFitness K) :
    SupComp K d M where
  discover := D.discover L ff P
  strategy := C.strategy
  initDraw := init
  learner := L
  mix := P
  filter := filterAll
  fitness := sf

/-- suprb/suprb.py:175, 320-323: setting the matching type of the mutation, which may fail (outside of `_catch_errors`). Random search has no mutation; novelty search is modelled for ordered bounds,
for which the setter only selects the methods. (suprb/optimizer/rule/generation_operator.py:23-35) -/
def DiscoveryPart.configure (D : DiscoveryPart K d M) : Option PyErr :=
  match D with
  | .es cfg .. =>
    match (newMutation none cfg.mutation.sigma).bind fun o => o.setMatching (some cfg.kind) with
    | .error e => some e
    | .ok _ => none
  | _ => none

/-- suprb/suprb.py:124-215 `fit` of a model with these components, as in `kindFit`. -/
def partsFit (cfg : SupCfg K) (D : DiscoveryPart K d M) (C : CompositionPart K d M) (P : MixParams K) (init : Seed → Nat → Nat → K) (L : Learner K d M) (ff : RuleFitness K d)
    (sf : Nat → SolFitness K) (entropy : Nat) (raw : RawData K d) (doCleanup : Bool) (st0 : SupState K d M) : FitResult K d M :=
  match raw.check with
  | .error e => ⟨{ st0 with isError := false, elitist := some .placeholder }, [], some e⟩
  | .ok _ =>
    match D.configure with
    | some e => ⟨{ st0 with isError := false, elitist := some .placeholder, pool := [], cleaned := false }, [], some e⟩
    | none => st0.fit cfg (partsComp D C P init L ff sf) entropy raw doCleanup

end Suprb
