import Verif.Model.Rule

/-!
# Model of `suprb/solution/mixing_model.py`, `suprb/solution/base.py`, `suprb/solution/initialization.py`
and of `SupRB._cleanup`

Simplifications: sums are exact (order of floating point summation is irrelevant); assigning a vector of wrong length through a
boolean mask is an error (numpy would broadcast a vector of length one).
-/

set_option autoImplicit false

namespace Suprb

open Spec

variable {K : Type} [Field K] [LinearOrder K] {d : Nat} {M : Type}

/-! ## Mixing -/

/-- suprb/solution/mixing_model.py:43-66, the three experience calculations. `none` is the infinite default of a bound. -/
inductive ExpCalc (K : Type)
  | plain
  | cap (lo hi : Option K)
  | capDim (lo hi : Option K)

/-- `np.clip` with possibly infinite bounds (suprb/solution/mixing_model.py:60, 66). -/
def clipOpt (lo hi : Option K) (x : K) : K :=
  let a := match lo with | none => x | some l => max x l
  match hi with | none => a | some h => min a h

/-- suprb/solution/mixing_model.py:48-49, 58-60, 64-66 for one rule; `dim` is the number of features. -/
def ExpCalc.value (c : ExpCalc K) (dim : Nat) (e : Nat) : K :=
  match c with
  | .plain => (e : K)
  | .cap lo hi => clipOpt lo hi (e : K)
  | .capDim lo hi => clipOpt (lo.map (· * (dim : K))) (hi.map (· * (dim : K))) (e : K)

/-- Configuration of `ErrorExperienceHeuristic` (suprb/solution/mixing_model.py:76-85) except the filter. -/
structure MixParams (K : Type) where
  expCalc : ExpCalc K
  weight : K

/-- `1 / error_` (suprb/solution/mixing_model.py:130); `1 / inf = 0`. Errors are never 0, see `C15_history`. -/
def invError (e : WithTop K) : K := (WithTop.map (fun x => 1 / x) e).untopD 0

/-- suprb/solution/mixing_model.py:125-130 `_get_taus` for one rule. -/
def Rule.tau (P : MixParams K) (ρ : Rule K d M) : Except PyErr K :=
  match ρ.st with
  | none => .error .attributeError
  | some s => .ok (invError s.error * (P.expCalc.value d s.experience * P.weight))

/-- `a = np.zeros(len(mask)); a[mask] = vals` (suprb/solution/mixing_model.py:114, 121). -/
def scatter : List Bool → List K → Except PyErr (List K)
  | [], [] => .ok []
  | [], _ :: _ => .error .valueError
  | true :: _, [] => .error .valueError
  | true :: ms, v :: vs =>
    match scatter ms vs with
    | .ok r => .ok (v :: r)
    | .error e => .error e
  | false :: ms, vs =>
    match scatter ms vs with
    | .ok r => .ok (0 :: r)
    | .error e => .error e

/-- suprb/solution/mixing_model.py:107-123 `_get_local_pred` for one rule: its match vector and its row of local predictions. -/
def Rule.localPred (L : Learner K d M) (cache : Bool) (X : List (Point K d)) (ρ : Rule K d M) :
    Except PyErr (List Bool × List K) :=
  if cache then
    match ρ.st with
    | none => .error .attributeError
    | some s =>
      if s.matchSet.length ≠ X.length then .error .indexError
      else match scatter s.matchSet s.pred with
        | .ok row => .ok (s.matchSet, row)
        | .error e => .error e
  else
    let ms := ρ.matchRows X
    if ms.any id = false then .ok (ms, List.replicate X.length 0)
    else match ρ.predict L (compress X ms) with
      | .error e => .error e
      | .ok p => match scatter ms p with
        | .ok row => .ok (ms, row)
        | .error e => .error e

/-- `np.sum(matrix, axis=0)` of a matrix with rows of length `n`. (suprb/solution/mixing_model.py:100, 138) -/
def colSum (n : Nat) (rows : List (List K)) : List K :=
  rows.foldr (fun r acc => List.zipWith (· + ·) r acc) (List.replicate n 0)

/-- `pred / tau_sum` (suprb/solution/mixing_model.py:104). Dividing by 0 is an error here; numpy would warn and give NaN or an infinity.
The divisors have been replaced by 1 where they were 0 (line 139), see `quotients_guard`. -/
def quotients (pred tauSum : List K) : Except PyErr (List K) :=
  if tauSum.any fun t => decide (t = 0) then .error .zeroDivisionError else .ok (List.zipWith (· / ·) pred tauSum)

/-- suprb/solution/mixing_model.py:96-105: the part of `__call__` after the subpopulation was filtered. -/
def mixRules (L : Learner K d M) (P : MixParams K) (cache : Bool) (X : List (Point K d))
    (sub : List (Rule K d M)) : Except PyErr (List K) := do
  let loc ← sub.mapM (Rule.localPred L cache X)
  let taus ← sub.mapM (Rule.tau P)
  let pred := colSum X.length (List.zipWith (fun (l : List Bool × List K) t => l.2.map (· * t)) loc taus)
  let tauSum := colSum X.length (List.zipWith (fun (l : List Bool × List K) t => l.1.map fun m => if m then t else 0) loc taus)
  quotients pred (tauSum.map fun t => if t = 0 then 1 else t)

/-- Filters of the subpopulation: suprb/solution/mixing_model.py:8-40. -/
abbrev SubFilter (K : Type) (d : Nat) (M : Type) := List (Rule K d M) → Except PyErr (List (Rule K d M))

/-- suprb/solution/mixing_model.py:13-14 `FilterSubpopulation.__call__` (the default). -/
def filterAll : SubFilter K d M := fun sub => .ok sub

/-- suprb/solution/mixing_model.py:22-26 `NBestFitness.__call__`. The indices are sorted by fitness, ascending and stable, and the
last `n` (python slice) are used. `fitness_` of a rule that was never fitted does not exist. -/
def nBestFitness (n : Nat) : SubFilter K d M := fun sub =>
  if sub.all (fun ρ => ρ.st.isSome) then
    .ok (lastSlice n (sortedAsc (fun ρ : Rule K d M => (ρ.st.map RuleState.fitness).getD ⊥) sub))
  else .error .attributeError

/-- suprb/solution/mixing_model.py:87-105 `ErrorExperienceHeuristic.__call__`. -/
def mixing (L : Learner K d M) (P : MixParams K) (filt : SubFilter K d M) (cache : Bool) (X : List (Point K d))
    (sub : List (Rule K d M)) : Except PyErr (List K) :=
  if sub.isEmpty then .ok (List.replicate X.length 0)
  else match filt sub with
    | .error e => .error e
    | .ok sub' => mixRules L P cache X sub'

/-! ## Solutions -/

/-- Attributes set by `Solution.fit` (suprb/solution/base.py:56-60). -/
structure SolState (K : Type) where
  error : K
  inputSize : Nat
  complexity : Nat
  fitness : K
  deriving DecidableEq

/-- suprb/solution/base.py:42-52 `Solution.__init__`; mixing model and fitness are parameters of the operations below. -/
structure Solution (K : Type) (d : Nat) (M : Type) where
  genome : List Bool
  pool : List (Rule K d M)
  st : Option (SolState K) := none
  deriving DecidableEq

/-- suprb/solution/base.py:75-79 `Solution.subpopulation`. -/
def Solution.subpopulation (σ : Solution K d M) : Except PyErr (List (Rule K d M)) :=
  if σ.genome.length = σ.pool.length then .ok (compress σ.pool σ.genome) else .error .assertionError

/-- suprb/solution/base.py:63-73 `Solution.predict`. -/
def Solution.predict (L : Learner K d M) (P : MixParams K) (filt : SubFilter K d M) (cache : Bool)
    (σ : Solution K d M) (X : List (Point K d)) : Except PyErr (List K) :=
  match σ.subpopulation with
  | .error e => .error e
  | .ok sub => mixing L P filt cache X sub

/-- `SolutionFitness.__call__` reads error, genome length and complexity (suprb/solution/fitness.py:15, 31-38). -/
abbrev SolFitness (K : Type) := K → Nat → Nat → K

/-- suprb/solution/base.py:54-61 `Solution.fit`; `mean_squared_error` rejects empty input and different lengths. -/
def Solution.fit (L : Learner K d M) (P : MixParams K) (filt : SubFilter K d M) (sf : SolFitness K)
    (X : List (Point K d)) (y : List K) (σ : Solution K d M) : Except PyErr (Solution K d M) :=
  match σ.predict L P filt true X with
  | .error e => .error e
  | .ok pred =>
    if y.length ≠ pred.length ∨ y.length = 0 then .error .valueError
    else
      let e := max (mse y pred) errorFloor
      let c := σ.genome.count true
      .ok { σ with st := some { error := e, inputSize := σ.genome.length, complexity := c,
                                fitness := sf e σ.genome.length c } }

/-- suprb/solution/initialization.py:13-16 and 54-56 `ZeroInit.pad`; a negative padding size is a `ValueError`. -/
def zeroPad (σ : Solution K d M) : Except PyErr (Solution K d M) :=
  if σ.pool.length < σ.genome.length then .error .valueError
  else .ok { σ with genome := σ.genome ++ List.replicate (σ.pool.length - σ.genome.length) false }

/-- suprb/solution/initialization.py:19-22 `random`: the bits for the uniform draws `u`. -/
def randomBits (p : K) (u : List K) : List Bool := u.map fun v => decide (v ≤ p)

/-- suprb/solution/initialization.py:13-16 and 79-84 `RandomInit.pad`; `draw n` are the `n` uniform draws. -/
def randomPad (p : K) (draw : Nat → List K) (σ : Solution K d M) : Except PyErr (Solution K d M) :=
  if σ.pool.length < σ.genome.length then .error .valueError
  else .ok { σ with genome := σ.genome ++ randomBits p (draw (σ.pool.length - σ.genome.length)) }

/-- suprb/solution/initialization.py:46-52 `ZeroInit.__call__`. -/
def zeroInit (pool : List (Rule K d M)) : Solution K d M :=
  { genome := List.replicate pool.length false, pool := pool }

/-- suprb/solution/initialization.py:71-77 `RandomInit.__call__`. -/
def randomInit (p : K) (draw : Nat → List K) (pool : List (Rule K d M)) : Solution K d M :=
  { genome := randomBits p (draw pool.length), pool := pool }

/-- suprb/suprb.py:325-334 `SupRB._cleanup`, effect on the elitist (and `pool_`, which is the elitist's new pool). -/
def cleanup (σ : Solution K d M) : Except PyErr (Solution K d M) :=
  match σ.subpopulation with
  | .error e => .error e
  | .ok sub => .ok { σ with genome := List.replicate sub.length true, pool := sub }

end Suprb
