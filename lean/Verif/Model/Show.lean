import Verif.Model.Dump

/-!
# `str` of rules and solutions, and rules of loaded models

Attributes that may be missing are optional here. The text itself (names, `=`, `,`, number formats) is not modelled, only which names are shown with which values.
-/

set_option autoImplicit false

namespace Suprb

open Spec

variable {K : Type} [Field K] [LinearOrder K] {d : Nat} {M : Type}

/-- A value of `fitness_` (suprb/rule/base.py:83): a number, or what a class returns if it is called, an object. -/
inductive FitVal (K : Type)
  | num (x : WithBot K)
  | object
  deriving DecidableEq

/-- The attributes that `__str__` reads (suprb/base.py:41-45, suprb/rule/base.py:106-107, suprb/solution/base.py:100-101); `more` is `experience_` or `complexity_`. -/
structure Attrs (K : Type) where
  isFitted : Option Bool := none
  error : Option (WithTop K) := none
  fitness : Option (FitVal K) := none
  more : Option Nat := none
  deriving DecidableEq

/-- What is shown: error, fitness, and experience or complexity (suprb/base.py:42-47). -/
structure Shown (K : Type) where
  error : WithTop K
  fitness : FitVal K
  more : Nat
  deriving DecidableEq

/-- `str(object)` (suprb/base.py:40-47): without `is_fitted_` the method returns `None`, and `str` raises a `TypeError`. -/
def Attrs.str (a : Attrs K) : Except PyErr (Shown K) :=
  if a.isFitted = some true then
    match a.error with
    | none => .error .attributeError
    | some e =>
      match a.fitness with
      | none => .error .attributeError
      | some f =>
        match a.more with
        | none => .error .attributeError
        | some m => .ok ⟨e, f, m⟩
  else .error .typeError

/-- The attributes of a rule (suprb/rule/base.py:60-64, 82-87). -/
def Rule.attrs (ρ : Rule K d M) : Attrs K :=
  match ρ.st with
  | none => {}
  | some s => ⟨some s.isFitted, some s.error, some (.num s.fitness), some s.experience⟩

/-- The attributes of a solution (suprb/solution/base.py:56-60). -/
def Solution.attrs (σ : Solution K d M) : Attrs K :=
  match σ.st with
  | none => {}
  | some s => ⟨some true, some (s.error : K), some (.num (s.fitness : K)), some s.complexity⟩

/-- The attributes of a rule of a loaded model (suprb/json.py:210-212). (The loaded elitist has none, suprb/json.py:235-241.) -/
def Json.RuleJson.attrs (r : Json.RuleJson K d) : Attrs K := ⟨some r.isFitted, some r.error, none, some r.experience⟩

/-- The class of the rule fitness (suprb/rule/fitness.py:10-19, 22-66): those mixing the volume take one argument when they are constructed, `PseudoAccuracy` takes none. -/
inductive FitnessClass
  | pseudoAccuracy
  | volume
  deriving DecidableEq

/-- `self.fitness(self)` (suprb/rule/base.py:83) of a loaded rule: `fitness` is the class and not an instance of it (suprb/json.py:207), so it is constructed with the rule as argument. -/
def FitnessClass.call : FitnessClass → Except PyErr (FitVal K)
  | .pseudoAccuracy => .error .typeError
  | .volume => .ok .object

/-- suprb/rule/base.py:53-88 `fit` of a rule of a loaded model with the condition of `ρ` (there is no `match_set_`, suprb/json.py:203-214). The result holds the local model and the attributes;
after an exception the rule has been changed in part, which is not modelled. -/
def loadedFit (L : Learner K d M) (c : FitnessClass) (X : List (Point K d)) (y : List K) (ρ : Rule K d M) : Except PyErr (Option M × Attrs K) :=
  let ms := ρ.matchRows X
  if ms.any id = false then .ok (ρ.model, ⟨some false, some ⊤, some (.num ⊥), some 0⟩)
  else if y.length ≠ X.length then .error .indexError
  else
    let Xm := compress X ms
    let ym := compress y ms
    let m := L.fit Xm ym
    match (c.call : Except PyErr (FitVal K)) with
    | .error e => .error e
    | .ok f => .ok (some m, ⟨some true, some ((max (mse ym (Xm.map (L.predict m))) errorFloor : K)), some f, some Xm.length⟩)

end Suprb
