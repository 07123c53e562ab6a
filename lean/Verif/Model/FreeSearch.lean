import Verif.Model.FreeES

/-!
# Model of random search and novelty search with all of their settings

`Verif.Model.Search` has both with ordered bounds, half-normal initialisation, the default constraint and acceptance by variance. Here the matching type, the initialisation, the mutation, the selection,
the constraint and the acceptance can be set as well. (suprb/optimizer/rule/rs/rs.py:43-65, suprb/optimizer/rule/ns/ns.py:57-98)
-/

set_option autoImplicit false

namespace Suprb

open Spec

variable {K : Type} [Field K] [LinearOrder K] {d : Nat} {M : Type}

/-- The random numbers of one selection of several rules: the `k`-th number that is compared with the cumulated weights, and the `k`-th position that is drawn from so many elements.
(suprb/optimizer/rule/selection.py:36, 38, 68, 74) -/
structure SelectDraws (K : Type) where
  u : Nat → K
  pick : Nat → Nat → Nat

/-- `fitness_` of the rule at a position. (suprb/optimizer/rule/selection.py:22, 30, 33) -/
def fitnessOfPos (rules : List (Rule K d M)) (i : Nat) : WithBot K := ((rules[i]?).map ruleFitnessOf).getD ⊥

/-- `__call__` of the selections for any `size` (suprb/optimizer/rule/selection.py:21-23, 29-41, 47-68, 73-74), as positions in the list of rules, since the rules are returned as the same objects. The
`ValueError` of `choice` in `RouletteWheel` is caught (39-41); `NondominatedSort` begins with `rules[0]` (48). -/
def SelectCfg.positions (s : SelectCfg) (rules : List (Rule K d M)) (size : Nat) (z : SelectDraws K) : Except PyErr (List Nat) :=
  let all := List.range rules.length
  match s with
  | .fittest => if rules.all (fun ρ => ρ.st.isSome) then .ok (Suprb.fittest (fitnessOfPos rules) all size) else .error .attributeError
  | .roulette =>
    if rules.all (fun ρ => ρ.st.isSome) then
      let fin := all.filter fun i => decide (fitnessOfPos rules i ≠ ⊥)
      let r := if fin.length ≠ 0 then
          match rouletteP (fin.map fun i => (fitnessOfPos rules i).unbotD 0) with
          | .error e => .error e
          | .ok p => npChoiceP fin p ((List.range size).map z.u)
        else npChoice (K := K) all none true size ((List.range size).map (z.pick rules.length))
      match r with
      | .error .valueError => .ok []
      | r => r
    else .error .attributeError
  | .nondominated =>
    match nondominatedCandidates (dominatesAt rules) all with
    | .error e => .error e
    | .ok cands => npChoice (K := K) cands none true size ((List.range size).map (z.pick cands.length))
  | .random => npChoice (K := K) all none true size ((List.range size).map (z.pick rules.length))

/-- `n` origins, and at each an initialised, constrained and fitted rule (suprb/optimizer/rule/rs/rs.py:80-92, suprb/optimizer/rule/ns/ns.py:142-153). -/
def placedRules (s : OriginStrategy) (k : Kind) (i : InitCfg) (c : ConstraintCfg K d) (L : Learner K d M) (ff : RuleFitness K d) (P : MixParams K) (filt : SubFilter K d M)
    (draw : Option (List K) → List Nat) (u : Nat → Point K d) (inits : Nat → Pairs K d) (elitist : Option (Indiv K)) (pool : List (Rule K d M)) (X : List (Point K d)) (y : List K) (fb : Pairs K d)
    (n : Nat) : Except PyErr (List (Rule K d M)) :=
  match originsOf s L P filt X y pool elitist n draw u with
  | .error e => .error e
  | .ok origins => (origins.zip (List.range origins.length)).mapM fun p => placedRule k i c L ff X y fb (p.1, inits p.2)

/-! ### Random search -/

/-- All parameters of `RandomSearch` that have an effect. (suprb/optimizer/rule/rs/rs.py:43-65) -/
structure FreeRS (K : Type) (d : Nat) where
  rulesGenerated : Nat
  origin : OriginStrategy
  kind : Kind
  init : InitCfg
  selection : SelectCfg
  constraint : ConstraintCfg K d
  acceptance : AcceptCfg K

/-- The random numbers of one call of `RandomSearch.optimize`, for every group of rules. (suprb/optimizer/rule/rs/rs.py:76-94) -/
structure FreeRSDraws (K : Type) (d : Nat) where
  origins : Nat → Option (List K) → List Nat
  uniform : Nat → Nat → Point K d
  inits : Nat → Nat → Pairs K d
  selections : Nat → SelectDraws K

/-- `self.selection(rules, random_state=..., size=1)` (suprb/optimizer/rule/rs/rs.py:94). -/
def SelectCfg.one (s : SelectCfg) (rules : List (Rule K d M)) (z : SelectDraws K) : Except PyErr (List (Rule K d M)) :=
  match s.positions rules 1 z with
  | .error e => .error e
  | .ok idx => .ok (idx.filterMap fun i => rules[i]?)

/-- suprb/optimizer/rule/rs/rs.py:67-96 `RandomSearch.optimize`; the groups are created before the selections as in `rsDiscover`. -/
def freeRsDiscover (cfg : FreeRS K d) (L : Learner K d M) (ff : RuleFitness K d) (P : MixParams K) (filt : SubFilter K d M) (D : FreeRSDraws K d) (elitist : Option (Indiv K))
    (pool : List (Rule K d M)) (X : List (Point K d)) (y : List K) (n : Nat) : Except PyErr (List (Rule K d M)) :=
  match estimateBounds X with
  | .error e => .error e
  | .ok fb =>
    match (List.range n).mapM fun g => placedRules cfg.origin cfg.kind cfg.init cfg.constraint L ff P filt (D.origins g) (D.uniform g) (D.inits g) elitist pool X y fb cfg.rulesGenerated with
    | .error e => .error e
    | .ok groups => randomSearch cfg.selection.one (cfg.acceptance.accept y) (groups.zip ((List.range n).map D.selections))

/-! ### Novelty search -/

/-- The archives. (suprb/optimizer/rule/ns/archive.py:36-59) -/
inductive ArchiveCfg
  | novel
  | random
  | none_
  deriving DecidableEq

/-- All parameters of `NoveltySearch` (suprb/optimizer/rule/ns/ns.py:57-98); the crossover is `UniformCrossover(crossover_rate=rate)`, the only one there is (suprb/optimizer/rule/crossover.py:25). -/
structure FreeNS (K : Type) (d : Nat) where
  nIter : Nat
  lmbda : Nat
  ns : NsCfg K
  archive : ArchiveCfg
  origin : OriginStrategy
  kind : Kind
  init : InitCfg
  rate : K
  mutation : MutationCfg
  selection : SelectCfg
  constraint : ConstraintCfg K d
  acceptance : AcceptCfg K

/-- The random numbers of one call of `NoveltySearch.optimize`, with what is left on the rules of the pool as in `NSDraws`: `shuffles g n` and the archives' `orders` are the orders in which `shuffle`
puts lists of length `n`. (suprb/optimizer/rule/ns/ns.py:114-159, suprb/optimizer/rule/ns/archive.py:48) -/
structure FreeNSDraws (K : Type) (d : Nat) where
  origins : Option (List K) → List Nat
  uniform : Nat → Point K d
  inits : Nat → Pairs K d
  selections : Nat → SelectDraws K
  shuffles : Nat → Nat → List Nat
  breed : Nat → Nat → BreedDraw K d
  orders : Nat → Bool → Nat → List Nat
  leftover : Nat → List K × Option Nat

/-- suprb/optimizer/rule/ns/ns.py:161-172: crossover, mutation, constraint and fit for one pair of parents, as in `breedRules`. -/
def freeBreed (cfg : FreeNS K d) (o : OperatorObj) (L : Learner K d M) (ff : RuleFitness K d) (X : List (Point K d)) (y : List K) (fb : Pairs K d) (A B : Rule K d M) (z : BreedDraw K d) :
    Except PyErr (List (Rule K d M)) :=
  match ruleCrossover cfg.kind cfg.rate z.u z.mask A.bounds B.bounds with
  | .error e => .error e
  | .ok (a, b) =>
    match movedRule cfg.mutation cfg.constraint o L ff X y fb { A with bounds := a } z.first with
    | .error e => .error e
    | .ok c1 =>
      match movedRule cfg.mutation cfg.constraint o L ff X y fb { B with bounds := b } z.second with
      | .error e => .error e
      | .ok c2 => .ok [c1, c2]

/-- suprb/optimizer/rule/ns/archive.py:39-41, 47-49, 58-59: the archive with the orders of its shuffles. -/
def ArchiveCfg.draw (a : ArchiveCfg) (order : Nat → List Nat) : NsArchive :=
  match a with
  | .novel => .novel
  | .random => .random order
  | .none_ => .none_

/-- suprb/optimizer/rule/ns/ns.py:155-159: the selected parents, shuffled. -/
def shuffledParents (s : SelectCfg) (size : Nat) (z : SelectDraws K) (order : Nat → List Nat) (rules : List (Rule K d M)) : Except PyErr (List Nat) :=
  match s.positions rules size z with
  | .error e => .error e
  | .ok idx => .ok ((order idx.length).filterMap fun i => idx[i]?)

/-- Generation `g` of novelty search (suprb/optimizer/rule/ns/ns.py:124-138). -/
def freeIteration (cfg : FreeNS K d) (D : FreeNSDraws K d) (g : Nat) : NsDraw (Rule K d M) (BreedDraw K d) where
  parents := shuffledParents cfg.selection cfg.lmbda (D.selections g) (D.shuffles g)
  breed := D.breed g
  archiveChildren := cfg.archive.draw (D.orders g true)
  archiveParents := cfg.archive.draw (D.orders g false)

/-- suprb/optimizer/rule/ns/ns.py:100-112 `NoveltySearch.optimize`. -/
def freeNsDiscover (cfg : FreeNS K d) (L : Learner K d M) (ff : RuleFitness K d) (P : MixParams K) (filt : SubFilter K d M) (D : FreeNSDraws K d) (elitist : Option (Indiv K))
    (pool : List (Rule K d M)) (X : List (Point K d)) (y : List K) (n : Nat) : Except PyErr (List (Rule K d M)) :=
  match estimateBounds X with
  | .error e => .error e
  | .ok fb =>
    match placedRules cfg.origin cfg.kind cfg.init cfg.constraint L ff P filt D.origins D.uniform D.inits elitist pool X y fb cfg.ns.mu with
    | .error e => .error e
    | .ok initial =>
      nsOptimize ruleView cfg.ns (freeBreed cfg ⟨some cfg.mutation.sigma, some cfg.kind⟩ L ff X y fb) validRule (cfg.acceptance.accept y) n (poolObjects D.leftover pool) initial
        ((List.range cfg.nIter).map (freeIteration cfg D))

/-! ### Training -/

/-- Random search or novelty search with their random numbers, for every seed and history. (suprb/suprb.py:168) -/
inductive SearchPart (K : Type) (d : Nat) (M : Type)
  | rs (cfg : FreeRS K d) (draws : Seed → List (Event K d M) → FreeRSDraws K d)
  | ns (cfg : FreeNS K d) (draws : Seed → List (Event K d M) → FreeNSDraws K d)

/-- `optimize` (suprb/suprb.py:254). -/
def SearchPart.discover (S : SearchPart K d M) (L : Learner K d M) (ff : RuleFitness K d) (P : MixParams K) (seed : Seed) (hist : List (Event K d M)) (el : Option (Indiv K))
    (pool : List (Rule K d M)) (X : List (Point K d)) (y : List K) (n : Nat) : Except PyErr (List (Rule K d M)) :=
  match S with
  | .rs cfg draws => freeRsDiscover cfg L ff P filterAll (draws seed hist) el pool X y n
  | .ns cfg draws => freeNsDiscover cfg L ff P filterAll (draws seed hist) el pool X y n

/-- suprb/suprb.py:175, 320-323: setting the matching type of the operators, in the order of their names; that of the initialisation never fails (suprb/rule/initialization.py:51-61). -/
def SearchPart.configure (S : SearchPart K d M) : Except PyErr Unit :=
  match S with
  | .rs .. => .ok ()
  | .ns cfg _ =>
    match (newCrossover none).bind fun o => o.setMatching (some cfg.kind) with
    | .error e => .error e
    | .ok _ =>
      match (newMutation none cfg.mutation.sigma).bind fun o => o.setMatching (some cfg.kind) with
      | .error e => .error e
      | .ok _ => .ok ()

/-- The components of a model (suprb/suprb.py:168-170) with this rule discovery, a composition method and a mixing model. -/
def searchComp (S : SearchPart K d M) (C : CompositionPart K d M) (P : MixParams K) (init : Seed → Nat → Nat → K) (L : Learner K d M) (ff : RuleFitness K d) (sf : Nat → SolFitness K) :
    SupComp K d M where
  discover := S.discover L ff P
  strategy := C.strategy
  initDraw := init
  learner := L
  mix := P
  filter := filterAll
  fitness := sf

/-- suprb/suprb.py:124-215 `fit` of a model with these components, as in `freeFit`. -/
def searchFit (cfg : SupCfg K) (S : SearchPart K d M) (C : CompositionPart K d M) (P : MixParams K) (init : Seed → Nat → Nat → K) (L : Learner K d M) (ff : RuleFitness K d)
    (sf : Nat → SolFitness K) (entropy : Nat) (raw : RawData K d) (doCleanup : Bool) (st0 : SupState K d M) : FitResult K d M :=
  match raw.check with
  | .error e => ⟨{ st0 with isError := false, elitist := some .placeholder }, [], some e⟩
  | .ok _ =>
    match S.configure with
    | .error e => ⟨{ st0 with isError := false, elitist := some .placeholder, pool := [], cleaned := false }, [], some e⟩
    | .ok _ => st0.fit cfg (searchComp S C P init L ff sf) entropy raw doCleanup

end Suprb
