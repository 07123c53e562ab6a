import Verif.Model.SupRB

/-!
# Prediction for data with any number of features

`SupRB.predict` (suprb/suprb.py:274-283) checks with `check_array` that the data are a table of finite numbers, but not that the number of columns is that of the training data. So the number of
features `k` of the data is a parameter here, besides the number of features `d` of the training data; the other models of predictions are for `k = d`.
-/

set_option autoImplicit false

namespace Suprb

open Spec

variable {K : Type} [Field K] [LinearOrder K] {d k : Nat} {M : Type}

/-- `bounds[:, 0] <= X` etc. (suprb/rule/matching.py:58, 95, 140-143, 187) for one row of `X`: vectors of `d` bounds and `k` values are compared entry by entry if `d = k`; if one of them has a single
entry, numpy repeats it; everything else is a `ValueError`. -/
def Rule.matchShape (ρ : Rule K d M) (x : Point K k) : Except PyErr Bool :=
  if h : d = k then .ok (ρ.kind.call ρ.bounds fun i => x (Fin.cast h i))
  else if h : d = 1 then .ok (ρ.kind.call (fun _ : Fin k => ρ.bounds ⟨0, h ▸ Nat.one_pos⟩) x)
  else if h : k = 1 then .ok (ρ.kind.call ρ.bounds fun _ => x ⟨0, h ▸ Nat.one_pos⟩)
  else .error .valueError

/-- suprb/rule/base.py:94-95 `Rule.predict`: the regressors of sklearn compare the number of features with that of their training data. -/
def Rule.predictShape (L : Learner K d M) (ρ : Rule K d M) (X : List (Point K k)) : Except PyErr (List K) :=
  match ρ.model with
  | none => .error .valueError
  | some m => if h : d = k then .ok (X.map fun x => L.predict m fun i => x (Fin.cast h i)) else .error .valueError

/-- suprb/solution/mixing_model.py:107-123 `_get_local_pred` for one rule without cache. -/
def Rule.localPredShape (L : Learner K d M) (X : List (Point K k)) (ρ : Rule K d M) : Except PyErr (List Bool × List K) :=
  match X.mapM ρ.matchShape with
  | .error e => .error e
  | .ok ms =>
    if ms.any id = false then .ok (ms, List.replicate X.length 0)
    else match ρ.predictShape L (compress X ms) with
      | .error e => .error e
      | .ok p => match scatter ms p with
        | .ok row => .ok (ms, row)
        | .error e => .error e

/-- suprb/solution/mixing_model.py:125-130 `_get_taus` for one rule; the number of features is that of the data. -/
def Rule.tauShape (k : Nat) (P : MixParams K) (ρ : Rule K d M) : Except PyErr K :=
  match ρ.st with
  | none => .error .attributeError
  | some s => .ok (invError s.error * (P.expCalc.value k s.experience * P.weight))

/-- suprb/solution/mixing_model.py:96-105 (as `mixRules`). -/
def mixRulesShape (L : Learner K d M) (P : MixParams K) (X : List (Point K k)) (sub : List (Rule K d M)) : Except PyErr (List K) := do
  let loc ← sub.mapM (Rule.localPredShape L X)
  let taus ← sub.mapM (Rule.tauShape k P)
  let pred := colSum X.length (List.zipWith (fun (l : List Bool × List K) t => l.2.map (· * t)) loc taus)
  let tauSum := colSum X.length (List.zipWith (fun (l : List Bool × List K) t => l.1.map fun m => if m then t else 0) loc taus)
  quotients pred (tauSum.map fun t => if t = 0 then 1 else t)

/-- suprb/solution/base.py:63-73, suprb/solution/mixing_model.py:87-105 (as `Solution.predict`). -/
def Solution.predictShape (L : Learner K d M) (P : MixParams K) (filt : SubFilter K d M) (σ : Solution K d M) (X : List (Point K k)) : Except PyErr (List K) :=
  match σ.subpopulation with
  | .error e => .error e
  | .ok sub =>
    if sub.isEmpty then .ok (List.replicate X.length 0)
    else match filt sub with
      | .error e => .error e
      | .ok sub' => mixRulesShape L P X sub'

/-- suprb/suprb.py:274-283 `predict`; `check_array` rejects tables without rows or columns. -/
def SupState.predictShape (c : SupComp K d M) (st : SupState K d M) (Xq : List (Point K k)) : Except PyErr (List K) :=
  if st.isFitted = false then .error .valueError
  else if Xq = [] ∨ k = 0 then .error .valueError
  else if st.isError then .ok (List.replicate Xq.length 0)
  else match st.elitist with
    | none => .error .attributeError
    | some .placeholder => .ok (List.replicate Xq.length 0)
    | some (.solution σ) => σ.predictShape c.learner c.mix c.filter Xq

end Suprb
