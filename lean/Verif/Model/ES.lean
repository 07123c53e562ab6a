import Verif.Model.Solution
import Verif.Model.Operators

/-!
# Model of `suprb/optimizer/rule/es/es.py`, `suprb/optimizer/rule/base.py`, `suprb/optimizer/rule/rs/rs.py`,
`suprb/optimizer/rule/selection.py` and `suprb/optimizer/rule/acceptance.py`

The loop of the evolution strategy is parametric in the type `R` of rules, their fitness, how a child is made from the current rule and one
set of random draws, the validity check, and the selection. The concrete rules are plugged in at the end of the file.
-/

set_option autoImplicit false

namespace Suprb

open Spec

/-! ## Selection (suprb/optimizer/rule/selection.py) -/

section Selection

variable {R : Type} {F : Type}

/-- suprb/optimizer/rule/selection.py:18-23 `Fittest.__call__`. -/
def fittest [LE F] [DecidableLE F] (fitness : R → F) (rules : List R) (size : Nat) : List R :=
  (sortedDesc fitness rules).take size

/-- `Fittest()(children)[0]` (suprb/optimizer/rule/es/es.py:129, 131). -/
def fittestFirst [LE F] [DecidableLE F] (fitness : R → F) (rules : List R) : Except PyErr R :=
  match fittest fitness rules 1 with
  | r :: _ => .ok r
  | [] => .error .indexError

variable [DecidableEq R]

/-- suprb/optimizer/rule/selection.py:51-63: the inner loop of `NondominatedSort`. `i` is the position of Python's list iterator, which keeps counting while
`candidates.remove(can)` shortens the list. `dom a b`: `a` has smaller error and larger volume than `b`. -/
def nondominatedInner (dom : R → R → Bool) (rule : R) (i : Nat) (cands : List R) (toBeAdded : Bool) : List R × Bool :=
  if h : i < cands.length then
    if dom cands[i] rule then (cands, false)
    else if dom rule cands[i] then nondominatedInner dom rule (i + 1) (cands.erase cands[i]) true
    else nondominatedInner dom rule (i + 1) cands true
  else (cands, toBeAdded)
termination_by cands.length - i
decreasing_by
  · have := List.length_erase_of_mem (List.getElem_mem h); omega
  · omega

/-- suprb/optimizer/rule/selection.py:49-66: one iteration of the outer loop. -/
def nondominatedStep (dom : R → R → Bool) (cands : List R) (rule : R) : List R :=
  let (c, add) := nondominatedInner dom rule 0 cands false
  if add then c ++ [rule] else c

/-- suprb/optimizer/rule/selection.py:47-66: the candidates from which `NondominatedSort` draws; `rules[0]` of an empty list is an `IndexError`. -/
def nondominatedCandidates (dom : R → R → Bool) (rules : List R) : Except PyErr (List R) :=
  match rules with
  | [] => .error .indexError
  | r :: rs => .ok (rs.foldl (nondominatedStep dom) [r])

end Selection

/-! ## Evolution strategy -/

/-- The replacement operators (suprb/optimizer/rule/es/es.py:127-135); any other string selects nothing. -/
inductive ESOperator | plus | comma | amp | other
  deriving DecidableEq, Repr

/-- What the evolution strategy needs: `child r z` is `self.constraint(self.mutation(r)).fit(X, y)` for the draws `z`,
`select l s` is `self.selection(l)[0]` for the draws `s`. (suprb/optimizer/rule/es/es.py:108-110, 129, 131) -/
structure ESParams (R Z S F : Type) where
  operator : ESOperator
  delay : Nat
  child : R → Z → Except PyErr R
  valid : R → Bool
  fitness : R → F
  select : List R → S → Except PyErr R

/-- `deque(maxlen=delay).append(e)` (suprb/optimizer/rule/es/es.py:101, 105). -/
def dequeAppend {R : Type} (maxlen : Nat) (w : List R) (e : R) : List R :=
  (w ++ [e]).drop ((w ++ [e]).length - maxlen)

variable {R Z S F : Type} [LE F] [DecidableLE F]

/-- How one iteration of the main loop ends: `break` (then `stop r`, with `r` the returned rule) or the next iteration with elitist and deque. (suprb/optimizer/rule/es/es.py:122, 132-135) -/
inductive GenOut (R : Type)
  | stop (r : R)
  | next (elitist : R) (w : List R)

/-- suprb/optimizer/rule/es/es.py:104-135: one iteration of the main loop; `w` is the deque `elitists`, `zs` and `s` the draws for the `lmbda` children and for
the selection. -/
def esGen (P : ESParams R Z S F) (zs : List Z) (s : S) (elitist : R) (w : List R) : Except PyErr (GenOut R) :=
  let w := dequeAppend P.delay w elitist
  match zs.mapM (P.child elitist) with
  | .error e => .error e
  | .ok children =>
    let validChildren := children.filter P.valid
    if validChildren.isEmpty then .ok (.next elitist w)
    else match P.operator with
      | .plus => match P.select (validChildren ++ [elitist]) s with
        | .error e => .error e
        | .ok new => .ok (.next new w)
      | .comma => match P.select validChildren s with
        | .error e => .error e
        | .ok new => .ok (.next new w)
      | .amp => match P.select validChildren s with
        | .error e => .error e
        | .ok new =>
          if w.length = P.delay then
            match w with
            | [] => .error .indexError
            | e0 :: _ => if w.all (fun e => decide (P.fitness e ≤ P.fitness e0)) then .ok (.stop e0) else .ok (.next new w)
          else .ok (.next new w)
      | .other => .ok (.next elitist w)

/-- suprb/optimizer/rule/es/es.py:91-137 `ES1xLambda._optimize`. One element of the list per iteration of the main loop, so `n_iter` is its length. -/
def esLoop (P : ESParams R Z S F) : List (List Z × S) → R → List R → Except PyErr R
  | [], elitist, _ => .ok elitist
  | (zs, s) :: gs, elitist, w =>
    match esGen P zs s elitist w with
    | .error e => .error e
    | .ok (.stop r) => .ok r
    | .ok (.next e w) => esLoop P gs e w

/-- suprb/optimizer/rule/es/es.py:91-137 `_optimize`, started with an empty deque. -/
def esOptimize (P : ESParams R Z S F) (gens : List (List Z × S)) (initial : R) : Except PyErr R :=
  esLoop P gens initial []

/-! ## Concrete rules -/

section Concrete

variable {K : Type} [Field K] [LinearOrder K] {d : Nat} {M : Type}

/-- suprb/optimizer/rule/es/es.py:109: `self.constraint(self.mutation(rule)).fit(X, y)`; the mutation works on a clone
(suprb/optimizer/rule/mutation.py:24). -/
def childRule (L : Learner K d M) (ff : RuleFitness K d) (X : List (Point K d)) (y : List K)
    (m : Mutation) (r : K) (fb : Pairs K d) (ρ : Rule K d M) (z : Pairs K d) : Except PyErr (Rule K d M) :=
  match childBounds m ρ.kind r fb z ρ.bounds with
  | .error e => .error e
  | .ok b => Rule.fit L ff X y { ρ.clone with bounds := b }

/-- suprb/optimizer/rule/es/es.py:113: `rule.is_fitted_ and rule.experience_ > 0`. (Children were fitted, so the attributes exist.) -/
def validRule (ρ : Rule K d M) : Bool :=
  match ρ.st with
  | none => false
  | some s => s.isFitted && decide (0 < s.experience)

/-- `rule.fitness_`, for fitted rules. (suprb/optimizer/rule/es/es.py:133; suprb/optimizer/rule/selection.py:23) -/
def ruleFitnessOf (ρ : Rule K d M) : WithBot K := (ρ.st.map RuleState.fitness).getD ⊥

/-- suprb/optimizer/rule/base.py:88-91: the initial rule of an origin, `self.constraint(self.init(mean=origin)).fit(X, y)`, for mean initialisation. -/
def initialRule (L : Learner K d M) (ff : RuleFitness K d) (X : List (Point K d)) (y : List K)
    (k : Kind) (r : K) (fb sp : Pairs K d) (origin : Point K d) : Except PyErr (Rule K d M) :=
  Rule.fit L ff X y { kind := k, bounds := constrain k r fb (meanInit k origin), inputSpace := sp }

/-- The evolution strategy on concrete rules with fittest selection (the default, suprb/optimizer/rule/es/es.py:60). -/
def concreteES (L : Learner K d M) (ff : RuleFitness K d) (X : List (Point K d)) (y : List K)
    (op : ESOperator) (delay : Nat) (m : Mutation) (r : K) (fb : Pairs K d) :
    ESParams (Rule K d M) (Pairs K d) Unit (WithBot K) where
  operator := op
  delay := delay
  child := childRule L ff X y m r fb
  valid := validRule
  fitness := ruleFitnessOf
  select := fun l _ => fittestFirst ruleFitnessOf l

/-! ## Acceptance (suprb/optimizer/rule/acceptance.py) -/

/-- suprb/optimizer/rule/acceptance.py:23-24 `MaxError.__call__`. -/
def acceptMaxError (maxError : K) (ρ : Rule K d M) : Except PyErr Bool :=
  match ρ.st with
  | none => .error .attributeError
  | some s => .ok (decide (s.error ≤ ((maxError : K) : WithTop K)))

/-- suprb/optimizer/rule/acceptance.py:36-41 `Variance.__call__`. A mask of the wrong length is an `IndexError`. For `beta = 0` numpy divides by
zero: `inf`, or NaN if all targets are zero. -/
def acceptVariance (beta : K) (y : List K) (ρ : Rule K d M) : Except PyErr Bool :=
  match ρ.st with
  | none => .error .attributeError
  | some s =>
    if s.experience < 1 then .ok false
    else if s.matchSet.length ≠ y.length then .error .indexError
    else
      let localY := compress y s.matchSet
      let sumSq := (localY.map (· ^ 2)).sum
      if (localY.length : K) * beta = 0 then .ok (decide (sumSq ≠ 0))
      else .ok (decide (s.error ≤ ((sumSq / ((localY.length : K) * beta) : K) : WithTop K)))

/-- suprb/optimizer/rule/base.py:56-62 `_filter_invalid_rules`; an exception in the acceptance propagates. -/
def filterInvalid {R : Type} (accept : R → Except PyErr Bool) : List (Option R) → Except PyErr (List R)
  | [] => .ok []
  | none :: rs => filterInvalid accept rs
  | some r :: rs =>
    match accept r with
    | .error e => .error e
    | .ok true => match filterInvalid accept rs with
      | .ok l => .ok (r :: l)
      | .error e => .error e
    | .ok false => filterInvalid accept rs

/-- suprb/optimizer/rule/rs/rs.py:67-96 `RandomSearch.optimize`: `rules_generated` random rules (already constrained and fitted) per returned rule, one is selected from each group. -/
def randomSearch {R S : Type} (select : List R → S → Except PyErr (List R)) (accept : R → Except PyErr Bool)
    (groups : List (List R × S)) : Except PyErr (List R) :=
  match groups.mapM (fun g => select g.1 g.2) with
  | .error e => .error e
  | .ok out => filterInvalid accept (out.flatten.map some)

/-- suprb/optimizer/rule/base.py:75-99 `ParallelSingleRuleDiscovery.optimize` after the origins were drawn, executed sequentially: one initial rule per origin, one
optimisation per initial rule with its own random stream, then the acceptance filter. -/
def discoverRules {R O S : Type} (init : O → Except PyErr R) (optimizeOne : R → S → Except PyErr (Option R))
    (accept : R → Except PyErr Bool) (origins : List O) (streams : List S) : Except PyErr (List R) :=
  match origins.mapM init with
  | .error e => .error e
  | .ok initial =>
    match (initial.zip streams).mapM (fun p => optimizeOne p.1 p.2) with
    | .error e => .error e
    | .ok rules => filterInvalid accept rules

end Concrete

end Suprb
