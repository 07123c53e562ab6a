import Verif.Model.ES

/-!
# Model of the random rule selections (`suprb/optimizer/rule/selection.py`) and of the random filters of the mixing model (`suprb/solution/mixing_model.py`)

`Generator.choice` takes the drawn positions as an argument (`ChoiceOk` says which positions it can draw), or, for weighted draws with replacement, the uniform random numbers numpy
compares with the cumulated probabilities.
-/

set_option autoImplicit false

namespace Suprb

open Spec

variable {K : Type} [Field K] [LinearOrder K] {d : Nat} {M : Type}

/-- `rng.choice(a, size=size, replace=replace, p=p)` of numpy, as used in suprb/optimizer/rule/selection.py:36, 38, 68, 74 and suprb/solution/mixing_model.py:32, 40: the input checks (all of
them `ValueError`s) and the elements at the drawn positions `idx`. -/
def npChoice {α : Type} (a : List α) (p : Option (List K)) (replace : Bool) (size : Nat) (idx : List Nat) : Except PyErr (List α) :=
  if a.length = 0 ∧ size ≠ 0 then .error .valueError
  else match p with
    | none => if replace = false ∧ a.length < size then .error .valueError else .ok (idx.filterMap fun i => a[i]?)
    | some p =>
      if p.length ≠ a.length ∨ (∃ q ∈ p, q < 0) ∨ p.sum ≠ 1 then .error .valueError
      else if replace = false ∧ (a.length < size ∨ (p.filter fun q => decide (q ≠ 0)).length < size) then .error .valueError
      else .ok (idx.filterMap fun i => a[i]?)

/-- The positions numpy can draw: as many as requested, each within the list and of positive probability, and distinct without replacement. (`choice` in suprb/optimizer/rule/selection.py:36, 38, 68 and suprb/optimizer/solution/ga/selection.py:32, 42) -/
def ChoiceOk (n : Nat) (p : Option (List K)) (replace : Bool) (size : Nat) (idx : List Nat) : Prop :=
  idx.length = size ∧ (∀ i ∈ idx, i < n ∧ ∀ q, p = some q → q.getD i 0 ≠ 0) ∧ (replace = false → idx.Nodup)

/-- `fitnesses / np.sum(fitnesses)` (suprb/optimizer/rule/selection.py:33-34, suprb/solution/mixing_model.py:37-38). For the sum zero numpy yields NaN or infinite weights of both signs, which
`choice` rejects with a `ValueError`; that error is returned here already. -/
def rouletteP (fs : List K) : Except PyErr (List K) := if fs.sum = 0 then .error .valueError else .ok (fs.map (· / fs.sum))

/-- `cdf.searchsorted(u, side="right")` in numpy's `Generator.choice`, `cdf` the cumulated probabilities (which do not decrease): the first position whose cumulated probability exceeds `u`. (`choice` in suprb/optimizer/rule/selection.py:36, 38, 68 and suprb/optimizer/solution/ga/selection.py:32, 42) -/
def searchCdf : List K → K → Nat
  | [], _ => 0
  | q :: p, u => if q ≤ u then searchCdf p (u - q) + 1 else 0

/-- `rng.choice(a, p=p, size=len(us))` with replacement for a non-empty `a`; `us` are the numbers `rng.random(size)`. (`choice` in suprb/optimizer/rule/selection.py:36, 38, 68 and suprb/optimizer/solution/ga/selection.py:32, 42) -/
def npChoiceP {α : Type} (a : List α) (p us : List K) : Except PyErr (List α) :=
  if p.length ≠ a.length ∨ (∃ q ∈ p, q < 0) ∨ p.sum ≠ 1 then .error .valueError else .ok (us.filterMap fun u => a[searchCdf p u]?)

/-- suprb/optimizer/rule/selection.py:26-41 `RouletteWheel.__call__` for `size = len(us)`; `idx` are the positions drawn if no fitness is finite. The `ValueError` of `choice` is caught and an empty list
returned. -/
def ruleRoulette (rules : List (Rule K d M)) (us : List K) (idx : List Nat) : Except PyErr (List (Rule K d M)) :=
  if rules.all (fun ρ => ρ.st.isSome) then
    let fin := rules.filter fun ρ => decide (ruleFitnessOf ρ ≠ ⊥)
    let r := if fin.length ≠ 0 then
        match rouletteP (fin.map fun ρ => (ruleFitnessOf ρ).unbotD 0) with
        | .error e => .error e
        | .ok p => npChoiceP fin p us
      else npChoice (K := K) rules none true us.length idx
    match r with
    | .error .valueError => .ok []
    | r => r
  else .error .attributeError

/-- suprb/optimizer/rule/selection.py:18-23 `Fittest.__call__`. -/
def ruleFittest (rules : List (Rule K d M)) (size : Nat) : Except PyErr (List (Rule K d M)) :=
  if rules.all (fun ρ => ρ.st.isSome) then .ok (fittest ruleFitnessOf rules size) else .error .attributeError

/-- suprb/optimizer/rule/selection.py:71-74 `Random.__call__`. -/
def ruleRandom (rules : List (Rule K d M)) (size : Nat) (idx : List Nat) : Except PyErr (List (Rule K d M)) := npChoice (K := K) rules none true size idx

/-- `self.selection(children, random_state=random_state)[0]` (suprb/optimizer/rule/es/es.py:129, 131) with `RouletteWheel`. -/
def rouletteFirst (rules : List (Rule K d M)) (s : K × Nat) : Except PyErr (Rule K d M) :=
  match ruleRoulette rules [s.1] [s.2] with
  | .error e => .error e
  | .ok [] => .error .indexError
  | .ok (r :: _) => .ok r

/-- The evolution strategy with roulette wheel selection instead of the fittest (suprb/optimizer/rule/es/es.py:59-60). -/
def rouletteES (L : Learner K d M) (ff : RuleFitness K d) (X : List (Point K d)) (y : List K) (op : ESOperator) (delay : Nat) (m : Mutation) (r : K) (fb : Pairs K d) :
    ESParams (Rule K d M) (Pairs K d) (K × Nat) (WithBot K) where
  operator := op
  delay := delay
  child := childRule L ff X y m r fb
  valid := validRule
  fitness := ruleFitnessOf
  select := rouletteFirst

/-- suprb/solution/mixing_model.py:29-32 `NRandom.__call__`; `rule_amount` is not negative. -/
def filterNRandom (amount : Nat) (idx : List Nat) : SubFilter K d M := fun sub => npChoice (K := K) sub none false (min sub.length amount) idx

/-- suprb/solution/mixing_model.py:35-40 `RouletteWheel.__call__`. A fitness of `-inf` makes weights NaN: `ValueError`. -/
def filterRoulette (amount : Nat) (idx : List Nat) : SubFilter K d M := fun sub =>
  if sub.all (fun ρ => ρ.st.isSome) then
    if sub.any (fun ρ => decide (ruleFitnessOf ρ = ⊥)) then .error .valueError
    else match rouletteP (sub.map fun ρ => (ruleFitnessOf ρ).unbotD 0) with
      | .error e => .error e
      | .ok p => npChoice sub (some p) false (min sub.length amount) idx
  else .error .attributeError

end Suprb
