import Verif.Model.Parts
import Verif.Model.Selection

/-!
# Model of the evolution strategy with all of its settings

`Verif.Model.AnyKind` has the evolution strategy with every matching type, initialisation and mutation, but with the default origins, selection, constraint and acceptance. Here these can be set as
well. (suprb/optimizer/rule/es/es.py:51-76)
-/

set_option autoImplicit false

namespace Suprb

open Spec

variable {K : Type} [Field K] [LinearOrder K] {d : Nat} {M : Type}

/-- The constraints of suprb/optimizer/rule/constraint.py with their arguments: `MinRange` (50-54), `Clip` (38-43; `none` if no bounds are given) and `CombinedConstraint` (23-32; both parts are `None`
by default). (suprb/optimizer/rule/constraint.py:23-54) -/
inductive ConstraintCfg (K : Type) (d : Nat)
  | minRange (r : K)
  | clip (bounds : Option (Pairs K d))
  | combined (minRange : Option K) (clip : Option (Option (Pairs K d)))

/-- `__call__` of the constraints (suprb/optimizer/rule/constraint.py:34-35, 45-47, 56-58). Bounds that are not given are those of the data, `fb` (suprb/suprb.py:312-318). Calling `None` is a
`TypeError`. -/
def ConstraintCfg.apply (c : ConstraintCfg K d) (fb : Pairs K d) (k : Kind) (b : Pairs K d) : Except PyErr (Pairs K d) :=
  match c with
  | .minRange r => .ok (k.minRange r b)
  | .clip bounds => .ok (k.clip (bounds.getD fb) b)
  | .combined (some r) (some bounds) => .ok (k.clip (bounds.getD fb) (k.minRange r b))
  | .combined _ _ => .error .typeError

/-- The acceptances of suprb/optimizer/rule/acceptance.py: `MaxError` (19-21) and `Variance` (32-34). (suprb/optimizer/rule/acceptance.py:19-34) -/
inductive AcceptCfg (K : Type)
  | maxError (e : K)
  | variance (beta : K)

/-- `__call__` of the acceptances (suprb/optimizer/rule/acceptance.py:23-24, 36-41). -/
def AcceptCfg.accept (a : AcceptCfg K) (y : List K) (ρ : Rule K d M) : Except PyErr Bool :=
  match a with
  | .maxError e => acceptMaxError e ρ
  | .variance beta => acceptVariance beta y ρ

/-- The selections of suprb/optimizer/rule/selection.py. (suprb/optimizer/rule/selection.py:18-74) -/
inductive SelectCfg
  | fittest
  | roulette
  | nondominated
  | random
  deriving DecidableEq

/-- The random numbers of one selection: the number that is compared with the cumulated weights, and the position that is drawn from so many elements. (suprb/optimizer/rule/selection.py:36, 38, 68, 74) -/
structure SelectDraw (K : Type) where
  u : K
  pick : Nat → Nat

/-- `can.error_ < rule.error_ and can.volume_ > rule.volume_` (suprb/optimizer/rule/selection.py:53, 58). The rules are fitted. -/
def ruleDominates (a b : Rule K d M) : Bool :=
  match a.st, b.st with
  | some s, some t => decide (s.error < t.error) && decide (b.kind.volume b.bounds < a.kind.volume a.bounds)
  | _, _ => false

/-- The same for the rules at two positions of the list. (suprb/optimizer/rule/selection.py:53, 58) -/
def dominatesAt (rules : List (Rule K d M)) (i j : Nat) : Bool :=
  match rules[i]?, rules[j]? with
  | some a, some b => ruleDominates a b
  | _, _ => false

/-- suprb/optimizer/rule/selection.py:44-68 `NondominatedSort.__call__` for `size = 1`. The candidates are compared by identity (`candidates.remove(can)`, rules have no `__eq__`), so they are positions
here. -/
def nondominatedFirst (rules : List (Rule K d M)) (pick : Nat → Nat) : Except PyErr (List (Rule K d M)) :=
  match nondominatedCandidates (dominatesAt rules) (List.range rules.length) with
  | .error e => .error e
  | .ok cands => npChoice (K := K) (cands.filterMap fun i => rules[i]?) none true 1 [pick cands.length]

/-- `self.selection(rules, random_state=random_state)[0]` (suprb/optimizer/rule/es/es.py:129, 131). -/
def SelectCfg.first (s : SelectCfg) (rules : List (Rule K d M)) (z : SelectDraw K) : Except PyErr (Rule K d M) :=
  match s with
  | .fittest => fittestFirst ruleFitnessOf rules
  | .roulette => rouletteFirst rules (z.u, z.pick rules.length)
  | .nondominated =>
    match nondominatedFirst rules z.pick with
    | .error e => .error e
    | .ok [] => .error .indexError
    | .ok (r :: _) => .ok r
  | .random =>
    match ruleRandom rules 1 [z.pick rules.length] with
    | .error e => .error e
    | .ok [] => .error .indexError
    | .ok (r :: _) => .ok r

/-- All parameters of `ES1xLambda` (suprb/optimizer/rule/es/es.py:51-65). -/
structure FreeES (K : Type) (d : Nat) where
  nIter : Nat
  lmbda : Nat
  operator : ESOperator
  delay : Nat
  origin : OriginStrategy
  kind : Kind
  init : InitCfg
  mutation : MutationCfg
  selection : SelectCfg
  constraint : ConstraintCfg K d
  acceptance : AcceptCfg K

/-- The random numbers of one call of `ES1xLambda.optimize`: of the origins, of the initialisation of every rule, of every child and of the selection in every generation. (suprb/optimizer/rule/base.py:75-99, suprb/optimizer/rule/es/es.py:91-137) -/
structure FreeDraws (K : Type) (d : Nat) where
  origins : (n : Nat) → Option (List K) → List Nat
  uniform : Nat → Point K d
  inits : Nat → Pairs K d
  children : Nat → Nat → Nat → Pairs K d
  selections : Nat → Nat → SelectDraw K

/-- `self.constraint(self.init(mean=origin, ...)).fit(X, y)` (suprb/optimizer/rule/base.py:88-91, suprb/optimizer/rule/rs/rs.py:91-92, suprb/optimizer/rule/ns/ns.py:148-150); `o.1` is the origin, `o.2` are
the draws of the initialisation. -/
def placedRule (k : Kind) (i : InitCfg) (c : ConstraintCfg K d) (L : Learner K d M) (ff : RuleFitness K d) (X : List (Point K d)) (y : List K) (fb : Pairs K d) (o : Point K d × Pairs K d) :
    Except PyErr (Rule K d M) :=
  match initWith i k o.1 o.2 with
  | .error e => .error e
  | .ok b =>
    match c.apply fb k b with
    | .error e => .error e
    | .ok b' => Rule.fit L ff X y { kind := k, bounds := b', inputSpace := fb }

/-- `self.constraint(self.mutation(rule, ...)).fit(X, y)` (suprb/optimizer/rule/es/es.py:108-110, suprb/optimizer/rule/ns/ns.py:168-170). -/
def movedRule (m : MutationCfg) (c : ConstraintCfg K d) (o : OperatorObj) (L : Learner K d M) (ff : RuleFitness K d) (X : List (Point K d)) (y : List K) (fb : Pairs K d) (ρ : Rule K d M)
    (z : Pairs K d) : Except PyErr (Rule K d M) :=
  match callMutation m o z ρ.bounds with
  | .error e => .error e
  | .ok b =>
    match c.apply fb ρ.kind b with
    | .error e => .error e
    | .ok b' => Rule.fit L ff X y { ρ.clone with bounds := b' }

/-- suprb/optimizer/rule/base.py:88-91: the initial rule of an origin; `o.2` are the draws of the initialisation. -/
def freeInitial (cfg : FreeES K d) (L : Learner K d M) (ff : RuleFitness K d) (X : List (Point K d)) (y : List K) (fb : Pairs K d) (o : Point K d × Pairs K d) : Except PyErr (Rule K d M) :=
  placedRule cfg.kind cfg.init cfg.constraint L ff X y fb o

/-- suprb/optimizer/rule/es/es.py:108-110: a child of `ρ`, as in `kindChild`. -/
def freeChild (cfg : FreeES K d) (o : OperatorObj) (L : Learner K d M) (ff : RuleFitness K d) (X : List (Point K d)) (y : List K) (fb : Pairs K d) (ρ : Rule K d M) (z : Pairs K d) :
    Except PyErr (Rule K d M) := movedRule cfg.mutation cfg.constraint o L ff X y fb ρ z

/-- The strategy with these children and this selection. (suprb/optimizer/rule/es/es.py:91-137) -/
def freeES (cfg : FreeES K d) (o : OperatorObj) (L : Learner K d M) (ff : RuleFitness K d) (X : List (Point K d)) (y : List K) (fb : Pairs K d) :
    ESParams (Rule K d M) (Pairs K d) (SelectDraw K) (WithBot K) where
  operator := cfg.operator
  delay := cfg.delay
  child := freeChild cfg o L ff X y fb
  valid := validRule
  fitness := ruleFitnessOf
  select := cfg.selection.first

/-- suprb/optimizer/rule/base.py:75-99 `optimize` of the evolution strategy; `P` and `filt` are the mixing model of the elitist, for squared-error origins. -/
def freeDiscover (cfg : FreeES K d) (L : Learner K d M) (ff : RuleFitness K d) (P : MixParams K) (filt : SubFilter K d M) (D : FreeDraws K d) (elitist : Option (Indiv K))
    (pool : List (Rule K d M)) (X : List (Point K d)) (y : List K) (n : Nat) : Except PyErr (List (Rule K d M)) :=
  match estimateBounds X with
  | .error e => .error e
  | .ok fb =>
    match originsOf cfg.origin L P filt X y pool elitist n (D.origins n) D.uniform with
    | .error e => .error e
    | .ok origins =>
      discoverRules (freeInitial cfg L ff X y fb)
        (fun ρ gens => (esOptimize (freeES cfg ⟨some cfg.mutation.sigma, some cfg.kind⟩ L ff X y fb) gens ρ).map some) (cfg.acceptance.accept y)
        (origins.zip ((List.range n).map D.inits))
        ((List.range n).map fun k => (List.range cfg.nIter).map fun g => ((List.range cfg.lmbda).map (D.children k g), D.selections k g))

/-- The components of a model (suprb/suprb.py:168-170) with this rule discovery, a composition method and a mixing model. -/
def freeComp (cfg : FreeES K d) (D : Seed → List (Event K d M) → FreeDraws K d) (C : CompositionPart K d M) (P : MixParams K) (init : Seed → Nat → Nat → K) (L : Learner K d M)
    (ff : RuleFitness K d) (sf : Nat → SolFitness K) : SupComp K d M where
  discover := fun seed hist el pool X y n => freeDiscover cfg L ff P filterAll (D seed hist) el pool X y n
  strategy := C.strategy
  initDraw := init
  learner := L
  mix := P
  filter := filterAll
  fitness := sf

/-- suprb/suprb.py:124-215 `fit` of a model with these components, as in `kindFit`: setting the matching type of the mutation may fail (suprb/suprb.py:175, 320-323). -/
def freeFit (cfg : SupCfg K) (es : FreeES K d) (D : Seed → List (Event K d M) → FreeDraws K d) (C : CompositionPart K d M) (P : MixParams K) (init : Seed → Nat → Nat → K) (L : Learner K d M)
    (ff : RuleFitness K d) (sf : Nat → SolFitness K) (entropy : Nat) (raw : RawData K d) (doCleanup : Bool) (st0 : SupState K d M) : FitResult K d M :=
  match raw.check with
  | .error e => ⟨{ st0 with isError := false, elitist := some .placeholder }, [], some e⟩
  | .ok _ =>
    match (newMutation none es.mutation.sigma).bind fun o => o.setMatching (some es.kind) with
    | .error e => ⟨{ st0 with isError := false, elitist := some .placeholder, pool := [], cleaned := false }, [], some e⟩
    | .ok _ => st0.fit cfg (freeComp es D C P init L ff sf) entropy raw doCleanup

end Suprb
