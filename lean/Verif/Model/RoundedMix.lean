import Verif.Model.Rounded
import Verif.Model.Solution

/-!
# Mixing and errors in floating-point arithmetic

The mixing model (`Model/Solution.lean`) and the mean squared error (`Model/Rule.lean`) once more, with every result of `+`, `-`, `*` and `/`
rounded.  The local predictions are taken as they are: how a local model computes them is not modelled.  `np.sum` and `np.mean` may add
the numbers in any order (numpy adds row by row, pairwise or in blocks, depending on the shape): `Summation` allows every order and every
bracketing.  Simplification: no overflow, no underflow, no NaN.
-/

set_option autoImplicit false

namespace Suprb

open _root_.Spec (Pairs Point)

variable {K : Type} [Field K] [LinearOrder K] {d : Nat} {M : Type}

/-- `s` is a possible result of adding the numbers of the list, in some order and with some bracketing, rounding after every addition
(`np.sum`: suprb/solution/mixing_model.py:100, 138; `np.average` in `mean_squared_error`: suprb/rule/base.py:83). -/
inductive Rounding.Sums (R : Rounding K) : List K → K → Prop
  | nil : Rounding.Sums R [] 0
  | one (x : K) : Rounding.Sums R [x] x
  | add {l l' : List K} {s s' : K} (hl : l ≠ []) (hl' : l' ≠ []) (h : Rounding.Sums R l s) (h' : Rounding.Sums R l' s') :
      Rounding.Sums R (l ++ l') (R.rnd (s + s'))
  | perm {l l' : List K} {s : K} (hp : l.Perm l') (h : Rounding.Sums R l s) : Rounding.Sums R l' s

/-- A way of adding numbers with rounding (`np.sum`: suprb/solution/mixing_model.py:100, 138). -/
structure Summation (R : Rounding K) where
  sum : List K → K
  ok : ∀ l, R.Sums l (sum l)

namespace Rounding

variable (R : Rounding K)

/-- suprb/solution/mixing_model.py:48-49, 58-60, 64-66 for one rule, with rounded results; `experience_` is a float (suprb/rule/base.py:85). -/
def expValue (c : ExpCalc K) (dim : Nat) (e : Nat) : K :=
  match c with
  | .plain => R.rnd (e : K)
  | .cap lo hi => clipOpt lo hi (R.rnd (e : K))
  | .capDim lo hi =>
      clipOpt (lo.map fun l => R.rnd (l * (dim : K))) (hi.map fun h => R.rnd (h * (dim : K))) (R.rnd (e : K))

/-- `1 / error_` (suprb/solution/mixing_model.py:130) with a rounded result; `1 / inf = 0`. -/
def invError (e : WithTop K) : K := (WithTop.map (fun x => R.rnd (1 / x)) e).untopD 0

/-- suprb/solution/mixing_model.py:125-130 `_get_taus` for one rule, with rounded results. -/
def tau (P : MixParams K) (ρ : Rule K d M) : Except PyErr K :=
  match ρ.st with
  | none => .error .attributeError
  | some s => .ok (R.rnd (R.invError s.error * R.rnd (R.expValue P.expCalc d s.experience * P.weight)))

/-- `np.sum(matrix, axis=0)` of a matrix with rows of length `n` (suprb/solution/mixing_model.py:100, 138) with a given way of adding. -/
def colSum (sum : List K → K) (n : Nat) (rows : List (List K)) : List K :=
  (List.range n).map fun j => sum (rows.map fun r => r.getD j 0)

/-- suprb/solution/mixing_model.py:96-105, the part of `__call__` after the subpopulation was filtered, with rounded results. -/
def mixRules (S : Summation R) (L : Learner K d M) (P : MixParams K) (cache : Bool) (X : List (Point K d))
    (sub : List (Rule K d M)) : Except PyErr (List K) := do
  let loc ← sub.mapM (Rule.localPred L cache X)
  let taus ← sub.mapM (R.tau P)
  let pred := colSum S.sum X.length (List.zipWith (fun (l : List Bool × List K) t => l.2.map fun v => R.rnd (v * t)) loc taus)
  let tauSum := colSum S.sum X.length (List.zipWith (fun (l : List Bool × List K) t => l.1.map fun m => if m then t else 0) loc taus)
  (quotients pred (tauSum.map fun t => if t = 0 then 1 else t)).map (List.map R.rnd)

/-- suprb/solution/mixing_model.py:87-105 `ErrorExperienceHeuristic.__call__` with rounded results. -/
def mixing (S : Summation R) (L : Learner K d M) (P : MixParams K) (filt : SubFilter K d M) (cache : Bool) (X : List (Point K d))
    (sub : List (Rule K d M)) : Except PyErr (List K) :=
  if sub.isEmpty then .ok (List.replicate X.length 0)
  else match filt sub with
    | .error e => .error e
    | .ok sub' => R.mixRules S L P cache X sub'

/-- suprb/solution/base.py:63-73 `Solution.predict` with rounded results. -/
def predict (S : Summation R) (L : Learner K d M) (P : MixParams K) (filt : SubFilter K d M) (cache : Bool)
    (σ : Solution K d M) (X : List (Point K d)) : Except PyErr (List K) :=
  match σ.subpopulation with
  | .error e => .error e
  | .ok sub => R.mixing S L P filt cache X sub

/-- sklearn `mean_squared_error(y, pred)` for non-empty input (suprb/rule/base.py:83, suprb/solution/base.py:56) with rounded results:
differences, squares, their sum and its quotient by their number. -/
def mse (S : Summation R) (y pred : List K) : K :=
  R.rnd (S.sum (List.zipWith (fun a b => R.rnd (R.rnd (a - b) ^ 2)) y pred) / R.rnd (y.length : K))

/-- The value `max(mean_squared_error(y, pred), 1e-4)` stored as `error_` (suprb/rule/base.py:83, suprb/solution/base.py:56) with rounded results;
the literal is rounded, too. -/
def storedError (S : Summation R) (y pred : List K) : K := max (R.mse S y pred) (R.rnd errorFloor)

/-- suprb/rule/base.py:74-88, training on the matched samples, with a rounded error. -/
def refit (S : Summation R) (L : Learner K d M) (ff : RuleFitness K d) (X : List (Point K d)) (y : List K)
    (ms : List Bool) (ρ : Rule K d M) : Except PyErr (Rule K d M) :=
  if y.length ≠ X.length then .error .indexError
  else
    let Xm := compress X ms
    let ym := compress y ms
    let m := L.fit Xm ym
    let pr := Xm.map (L.predict m)
    let e := R.storedError S ym pr
    .ok { ρ with
          model := some m
          st := some { isFitted := true, error := (e : K), fitness := (ff e ρ.kind ρ.bounds ρ.inputSpace : K),
                       experience := Xm.length, pred := pr, matchSet := ms } }

/-- suprb/solution/base.py:54-61 `Solution.fit` with rounded predictions and a rounded error. -/
def fitSolution (S : Summation R) (L : Learner K d M) (P : MixParams K) (filt : SubFilter K d M) (sf : SolFitness K)
    (X : List (Point K d)) (y : List K) (σ : Solution K d M) : Except PyErr (Solution K d M) :=
  match R.predict S L P filt true σ X with
  | .error e => .error e
  | .ok pred =>
    if y.length ≠ pred.length ∨ y.length = 0 then .error .valueError
    else
      let e := R.storedError S y pred
      let c := σ.genome.count true
      .ok { σ with st := some { error := e, inputSize := σ.genome.length, complexity := c,
                                fitness := sf e σ.genome.length c } }

end Rounding

end Suprb
