import Verif.Model.Dump

/-!
# The default local model

`Ridge(alpha=0.01)` of sklearn is the local model of a rule unless another one is given (suprb/rule/initialization.py:45). sklearn is not part of the code; it is described by what it computes, in exact
arithmetic: the linear function (with intercept, which is not penalised) that minimises the sum of the squared errors plus `alpha` times the sum of the squared coefficients.
-/

set_option autoImplicit false

namespace Suprb

open Spec Json

variable {K : Type} [Field K] [LinearOrder K] {d : Nat}

/-- What ridge regression minimises, for the samples with their targets (sklearn `Ridge`, used in suprb/rule/initialization.py:45 and suprb/rule/base.py:80). -/
def ridgeLoss (alpha : K) (D : List (Point K d × K)) (m : LinModel K d) : K := (D.map fun q => (q.2 - m.predict q.1) ^ 2).sum + alpha * ∑ i, m.coef i ^ 2

/-- A solution of the ridge regression problem (sklearn `Ridge`, used in suprb/rule/initialization.py:45 and suprb/rule/base.py:80). -/
def IsRidge (alpha : K) (D : List (Point K d × K)) (m : LinModel K d) : Prop := ∀ m', ridgeLoss alpha D m ≤ ridgeLoss alpha D m'

open Classical in
/-- `self.model_.fit(X, y)` for ridge regression (suprb/rule/base.py:80). -/
noncomputable def ridgeFit (alpha : K) (X : List (Point K d)) (y : List K) : LinModel K d :=
  if h : ∃ m, IsRidge alpha (X.zip y) m then h.choose else ⟨0, 0⟩

/-- Ridge regression as local model; the default is `alpha = 1 / 100` (suprb/rule/initialization.py:45). -/
noncomputable def ridge (alpha : K) : Learner K d (LinModel K d) := linLearner (ridgeFit alpha)

end Suprb
