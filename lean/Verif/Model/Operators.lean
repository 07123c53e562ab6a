import Verif.Py
import Verif.Model.Matching

/-!
# Model of rule initialisation, mutation and crossover

`suprb/rule/initialization.py`, `suprb/optimizer/rule/mutation.py`, `suprb/optimizer/rule/crossover.py`,
`suprb/optimizer/rule/generation_operator.py`, on the level of the bounds array.
Random draws are arguments; `DrawOk` predicates state the range of the distribution they come from.
-/

set_option autoImplicit false

namespace Suprb

open Spec

variable {K : Type} [Field K] [LinearOrder K] {d : Nat}

/-- suprb/rule/initialization.py:111-124 `MeanInit`. -/
def meanInit (k : Kind) (m : Point K d) : Pairs K d :=
  match k with
  | .ordered => fun i => (m i, m i)
  | .unordered => fun i => (m i, m i)
  | .centerSpread => fun i => (m i, 0)
  | .minPercentage => fun i => (m i, 0)

/-- suprb/rule/initialization.py:127-163 `NormalInit`; `z i` are the two numbers drawn for row `i`
(for centre/spread and minimum/percentage the second one is half-normal, i.e. non-negative). -/
def normalInit (k : Kind) (z : Pairs K d) : Pairs K d :=
  match k with
  | .ordered => fun i => (min (z i).1 (z i).2, max (z i).1 (z i).2)
  | .unordered => z
  | .centerSpread => z
  | .minPercentage => z

/-- suprb/rule/initialization.py:166-195 `HalfnormInit`; `h` are the half-normal draws. -/
def halfnormInit (k : Kind) (m : Point K d) (h : Pairs K d) : Except PyErr (Pairs K d) :=
  match k with
  | .ordered => .ok fun i => (m i - (h i).1, m i + (h i).2)
  | .unordered => .ok fun i => (m i - (h i).1, m i + (h i).2)
  | .centerSpread => .error .typeError
  | .minPercentage => .error .typeError

/-- The concrete mutations of suprb/optimizer/rule/mutation.py. `SigmaRange` (36-67) only draws the `sigma` of another
mutation, i.e. it only changes the scale of the draws. (suprb/optimizer/rule/mutation.py:69, 92, 113, 136, 158) -/
inductive Mutation
  | normal | halfnorm | halfnormIncrease | uniform | uniformIncrease
  deriving DecidableEq, Repr

/-- `np.sort(bounds, axis=1)` (suprb/optimizer/rule/mutation.py:83, 104, 123, 149, 168). -/
def sortRows (b : Pairs K d) : Pairs K d := fun i => (min (b i).1 (b i).2, max (b i).1 (b i).2)

/-- Noise added to both columns: suprb/optimizer/rule/mutation.py:72-78 (`Normal`) and 139-145 (`Uniform`). -/
def addNoise (z b : Pairs K d) : Pairs K d := fun i => ((b i).1 + (z i).1, (b i).2 + (z i).2)

/-- Lower column decreased, upper column increased: suprb/optimizer/rule/mutation.py:120-122, 131-133, 165-167, 176-178. -/
def growNoise (z b : Pairs K d) : Pairs K d := fun i => ((b i).1 - (z i).1, (b i).2 + (z i).2)

/-- suprb/optimizer/rule/mutation.py:95-100 `Halfnorm.unordered_bound`: new bounds around the mean of the old ones. -/
def aroundMean (z b : Pairs K d) : Pairs K d :=
  fun i => (((b i).1 + (b i).2) / 2 - (z i).1, ((b i).1 + (b i).2) / 2 + (z i).2)

/-- `RuleMutation.__call__` (suprb/optimizer/rule/mutation.py:23-30): the bounds of the mutated clone of a rule with
bounds `b`. `execute` is one of the methods at 69-178 selected by the matching type
(suprb/optimizer/rule/generation_operator.py:23-35). `z` are the drawn numbers. -/
def mutate (m : Mutation) (k : Kind) (z b : Pairs K d) : Except PyErr (Pairs K d) :=
  match m, k with
  | .normal, .ordered => .ok (sortRows (addNoise z b))
  | .normal, .unordered => .ok (addNoise z b)
  | .normal, .centerSpread => .ok (addNoise z b)
  | .normal, .minPercentage => .ok (addNoise z b)
  | .halfnorm, .ordered => .ok (sortRows (aroundMean z b))
  | .halfnorm, .unordered => .ok (aroundMean z b)
  | .halfnorm, .centerSpread => .error .typeError
  | .halfnorm, .minPercentage => .error .typeError
  | .halfnormIncrease, .ordered => .ok (sortRows (growNoise z b))
  | .halfnormIncrease, .unordered => .error .typeError
  | .halfnormIncrease, .centerSpread => .ok (addNoise z b)
  | .halfnormIncrease, .minPercentage => .ok (growNoise z b)
  | .uniform, .ordered => .ok (sortRows (addNoise z b))
  | .uniform, .unordered => .ok (addNoise z b)
  | .uniform, .centerSpread => .ok (addNoise z b)
  | .uniform, .minPercentage => .ok (addNoise z b)
  | .uniformIncrease, .ordered => .ok (sortRows (growNoise z b))
  | .uniformIncrease, .unordered => .error .typeError
  | .uniformIncrease, .centerSpread => .ok fun i => ((b i).1 - (z i).1, (b i).2 + (z i).2)
  | .uniformIncrease, .minPercentage => .ok (growNoise z b)

/-- Range of the draws of a mutation, for a scale `sigma ≥ 0`: half-normal draws are `≥ 0`
(suprb/optimizer/rule/mutation.py:98-100, 121-122, 128, 132-133), uniform draws lie in the interval passed to `uniform`
(suprb/optimizer/rule/mutation.py:142, 145, 166-167, 172-173, 177-178). -/
def Mutation.DrawOk (m : Mutation) (k : Kind) (sigma : K × K) (z : Pairs K d) : Prop :=
  match m, k with
  | .normal, _ => True
  | .halfnorm, _ => ∀ i, 0 ≤ (z i).1 ∧ 0 ≤ (z i).2
  | .halfnormIncrease, .centerSpread => ∀ i, 0 ≤ (z i).2
  | .halfnormIncrease, _ => ∀ i, 0 ≤ (z i).1 ∧ 0 ≤ (z i).2
  | .uniform, _ => ∀ i, -sigma.1 ≤ (z i).1 ∧ (z i).1 ≤ sigma.1 ∧ -sigma.2 ≤ (z i).2 ∧ (z i).2 ≤ sigma.2
  | .uniformIncrease, .centerSpread =>
      ∀ i, -sigma.1 ≤ (z i).1 ∧ (z i).1 ≤ sigma.1 ∧ 0 ≤ (z i).2 ∧ (z i).2 ≤ sigma.2
  | .uniformIncrease, _ =>
      ∀ i, 0 ≤ (z i).1 ∧ (z i).1 ≤ sigma.1 ∧ 0 ≤ (z i).2 ∧ (z i).2 ≤ sigma.2

/-- suprb/optimizer/rule/crossover.py:28-39 `UniformCrossover.ordered_bound` (bounds of the two children). -/
def uniformCrossover (mask : Fin d → Bool) (A B : Pairs K d) : Pairs K d × Pairs K d :=
  (fun i => if mask i then A i else B i, fun i => if mask i then B i else A i)

/-- suprb/optimizer/rule/crossover.py:15-22 `RuleCrossover.__call__` with `UniformCrossover`; `u` is the first uniform draw.
For the other matching types `execute` has a different signature (41-48), so calling it with `A=, B=` is a `TypeError`. -/
def ruleCrossover (k : Kind) (rate u : K) (mask : Fin d → Bool) (A B : Pairs K d) :
    Except PyErr (Pairs K d × Pairs K d) :=
  if u < rate then
    match k with
    | .ordered => .ok (uniformCrossover mask A B)
    | _ => .error .typeError
  else .ok (A, B)

/-- `self.constraint(self.mutation(rule, ...))`: how every strategy derives a child from a rule
(suprb/optimizer/rule/es/es.py:109, suprb/optimizer/rule/ns/ns.py:161-172). -/
def childBounds (m : Mutation) (k : Kind) (r : K) (fb z b : Pairs K d) : Except PyErr (Pairs K d) :=
  match mutate m k z b with
  | .ok b' => .ok (constrain k r fb b')
  | .error e => .error e

end Suprb
