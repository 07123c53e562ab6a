import Verif.Model.Solution

/-!
# Model of `suprb/optimizer/rule/origin.py`
-/

set_option autoImplicit false

namespace Suprb

open Spec

variable {K : Type} [Field K] [LinearOrder K] {d : Nat} {M : Type}

/-- suprb/optimizer/rule/origin.py:85-86 `Matching._calculate_weights`: for each sample the number of rules that do not match it. `np.stack` of no or of
differently long match sets is a `ValueError`. -/
def matchingWeights (n : Nat) (matchSets : List (List Bool)) : Except PyErr (List Nat) :=
  if matchSets.isEmpty then .error .valueError
  else if matchSets.all (fun ms => ms.length == n) then
    .ok ((List.range n).map fun j => matchSets.countP fun ms => ms[j]? == some false)
  else .error .valueError

/-- suprb/optimizer/rule/origin.py:68-73: normalisation of the weights; `none` means uniform. -/
def normalise (w : List K) : Option (List K) :=
  if w.sum ≠ 0 then some (w.map (· / w.sum)) else none

/-- suprb/optimizer/rule/origin.py:62: the group of rules the weights are computed from. -/
def originSubgroup (useElitist : Bool) (pool : List (Rule K d M)) (elitist : Option (Solution K d M)) :
    Except PyErr (List (Rule K d M)) :=
  match elitist with
  | some σ => if useElitist then σ.subpopulation else .ok pool
  | none => .ok pool

/-- `rule.match_set_` (suprb/optimizer/rule/origin.py:86); it does not exist on a rule that was never fitted. -/
def Rule.storedMatchSet (ρ : Rule K d M) : Except PyErr (List Bool) :=
  match ρ.st with
  | none => .error .attributeError
  | some s => .ok s.matchSet

/-- suprb/optimizer/rule/origin.py:52-76 `RouletteWheelOrigin.__call__` up to the draw, for `Matching`: the probabilities (`none` for uniform). -/
def matchingProbabilities (useElitist : Bool) (n : Nat) (pool : List (Rule K d M)) (elitist : Option (Solution K d M)) :
    Except PyErr (Option (List K)) := do
  let sub ← originSubgroup useElitist pool elitist
  if sub.isEmpty then pure none
  else
    let ms ← sub.mapM Rule.storedMatchSet
    let w ← matchingWeights n ms
    pure (normalise (w.map fun c : Nat => (c : K)))

/-- suprb/optimizer/rule/origin.py:92-101 `SquaredError._calculate_weights`. With `elitist = None` both branches are an `AttributeError`. -/
def squaredErrorWeights (L : Learner K d M) (P : MixParams K) (filt : SubFilter K d M) (useElitist : Bool)
    (X : List (Point K d)) (y : List K) (elitist : Option (Solution K d M)) : Except PyErr (List K) :=
  match elitist with
  | none => .error .attributeError
  | some σ =>
    let σ := if useElitist then σ else { σ with genome := List.replicate σ.pool.length true }
    match σ.predict L P filt false X with
    | .error e => .error e
    | .ok pred => if pred.length ≠ y.length then .error .valueError else .ok (List.zipWith (fun p t => (p - t) ^ 2) pred y)

/-- suprb/optimizer/rule/origin.py:52-76 `RouletteWheelOrigin.__call__` up to the draw, for `SquaredError`. -/
def squaredErrorProbabilities (L : Learner K d M) (P : MixParams K) (filt : SubFilter K d M) (useElitist : Bool)
    (X : List (Point K d)) (y : List K) (pool : List (Rule K d M)) (elitist : Option (Solution K d M)) :
    Except PyErr (Option (List K)) := do
  let sub ← originSubgroup useElitist pool elitist
  if sub.isEmpty then pure none
  else
    let w ← squaredErrorWeights L P filt useElitist X y elitist
    pure (normalise w)

/-- `rng.choice(np.arange(len(X)), n_rules, p=probabilities)` and `X[indices]` (suprb/optimizer/rule/origin.py:75-76): the drawn indices `idx` are arbitrary indices
of positive probability; anything else cannot be drawn (`none`). -/
def drawOrigins (X : List (Point K d)) (probs : Option (List K)) (idx : List Nat) : Option (List (Point K d)) :=
  idx.mapM fun i =>
    match probs with
    | none => X[i]?
    | some p => match p[i]? with
      | some q => if q = 0 then none else X[i]?
      | none => none

end Suprb
