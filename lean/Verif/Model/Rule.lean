import Verif.Py
import Verif.Model.Matching
import Mathlib.Order.WithBot
import Mathlib.Data.Fintype.Pi

/-!
# Model of `suprb/rule/base.py`

A rule is a value; `fit` returns the updated rule. Attributes that only exist after the first call of `fit`
(`is_fitted_`, `error_`, `fitness_`, `experience_`, `pred_`, `match_set_`) are grouped in `RuleState` and wrapped in `Option`
(`none`: the attribute does not exist, reading it is an `AttributeError`).
-/

set_option autoImplicit false

namespace Suprb

open Spec

variable {K : Type} [Field K] [LinearOrder K] {d : Nat} {M : Type}

/-- The local model (sklearn regressor, suprb/rule/base.py:33, 80, 82, 95): an arbitrary deterministic training function and an
arbitrary prediction function that treats samples independently. -/
structure Learner (K : Type) (d : Nat) (M : Type) where
  fit : List (Point K d) → List K → M
  predict : M → Point K d → K

/-- Attributes set by `Rule.fit` (suprb/rule/base.py:37-39 and suprb/base.py:31-33). `+inf`/`-inf` are `⊤`/`⊥`. -/
structure RuleState (K : Type) where
  isFitted : Bool
  error : WithTop K
  fitness : WithBot K
  experience : Nat
  pred : List K
  matchSet : List Bool
  deriving DecidableEq

/-- suprb/rule/base.py:41-51 `Rule.__init__`. `model = none` is an untrained local model. -/
structure Rule (K : Type) (d : Nat) (M : Type) where
  kind : Kind
  bounds : Pairs K d
  inputSpace : Pairs K d
  model : Option M := none
  st : Option (RuleState K) := none
  deriving DecidableEq

/-- `RuleFitness.__call__` (suprb/rule/base.py:15-20): the rule fitnesses read the error, the matching function (for the volume) and
the input space only (suprb/rule/fitness.py:18, 30-42). -/
abbrev RuleFitness (K : Type) (d : Nat) := K → Kind → Pairs K d → Pairs K d → K

/-- `rule.match(X)` for all rows (suprb/rule/base.py:56). -/
def Rule.matchRows (ρ : Rule K d M) (X : List (Point K d)) : List Bool :=
  X.map fun x => ρ.kind.call ρ.bounds x

/-- sklearn `mean_squared_error(y, pred)` for non-empty input (suprb/rule/base.py:83, suprb/solution/base.py:56). -/
def mse (y pred : List K) : K :=
  (List.zipWith (fun a b => (a - b) ^ 2) y pred).sum / (y.length : K)

/-- The floor `1e-4` of errors (suprb/rule/base.py:83, suprb/solution/base.py:56). -/
def errorFloor : K := 1 / 10000

/-- `(a == b).all()` for two boolean numpy vectors (suprb/rule/base.py:70). Equal lengths: elementwise. A vector of length one
is broadcast. Otherwise numpy `<1.25` compares to the scalar `False`, which has no `all` (an `AttributeError`), newer versions raise. -/
def npEqAll (a b : List Bool) : Except PyErr Bool :=
  if a.length = b.length then .ok (a == b)
  else match a, b with
    | [x], b => .ok (b.all (· == x))
    | a, [x] => .ok (a.all (· == x))
    | _, _ => .error .attributeError

/-- suprb/rule/base.py:74-88: training on the matched samples. `y[mask]` with a mask of the wrong length is an `IndexError`. -/
def Rule.refit (L : Learner K d M) (ff : RuleFitness K d) (X : List (Point K d)) (y : List K)
    (ms : List Bool) (ρ : Rule K d M) : Except PyErr (Rule K d M) :=
  if y.length ≠ X.length then .error .indexError
  else
    let Xm := compress X ms
    let ym := compress y ms
    let m := L.fit Xm ym
    let pr := Xm.map (L.predict m)
    let e := max (mse ym pr) errorFloor
    .ok { ρ with
          model := some m
          st := some { isFitted := true, error := (e : K), fitness := (ff e ρ.kind ρ.bounds ρ.inputSpace : K),
                       experience := Xm.length, pred := pr, matchSet := ms } }

/-- suprb/rule/base.py:53-88 `Rule.fit`. -/
def Rule.fit (L : Learner K d M) (ff : RuleFitness K d) (X : List (Point K d)) (y : List K)
    (ρ : Rule K d M) : Except PyErr (Rule K d M) :=
  let ms := ρ.matchRows X
  if ms.any id = false then
    .ok { ρ with st := some { isFitted := false, error := ⊤, fitness := ⊥, experience := 0, pred := [], matchSet := ms } }
  else match ρ.st with
    | none => ρ.refit L ff X y ms
    | some s =>
      match npEqAll s.matchSet ms with
      | .error e => .error e
      | .ok true => .ok { ρ with st := some { s with isFitted := true } }
      | .ok false => ρ.refit L ff X y ms

/-- A history of calls `rule.fit(X1, y1); rule.fit(X2, y2); …` (suprb/rule/base.py:53-88) -/
def Rule.fits (L : Learner K d M) (ff : RuleFitness K d) (h : List (List (Point K d) × List K))
    (ρ : Rule K d M) : Except PyErr (Rule K d M) :=
  h.foldlM (fun ρ D => ρ.fit L ff D.1 D.2) ρ

/-- suprb/rule/base.py:97-104 `Rule.clone()` without arguments: copy of the bounds, untrained model, no fitted attributes. -/
def Rule.clone (ρ : Rule K d M) : Rule K d M :=
  { kind := ρ.kind, bounds := ρ.bounds, inputSpace := ρ.inputSpace }

/-- suprb/rule/base.py:94-95 `Rule.predict`; an untrained sklearn model raises `NotFittedError`, a `ValueError`. -/
def Rule.predict (L : Learner K d M) (ρ : Rule K d M) (X : List (Point K d)) : Except PyErr (List K) :=
  match ρ.model with
  | none => .error .valueError
  | some m => .ok (X.map (L.predict m))

end Suprb
