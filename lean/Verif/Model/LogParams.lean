import Verif.Model.Components

/-!
# The parameters recorded by the default logger

What `DefaultLogger.params_` contains after `fit` of an estimator, with components as objects (see `Model/Components`).
-/

set_option autoImplicit false

namespace Suprb

namespace Comp

variable {A : Type}

/-- `params_` (suprb/logging/default.py:16): the keys as lists of names (joined by two underscores in the code), the values are not copied. -/
abbrev Record (A : Type) := List (List Name × CVal A)

/-- suprb/logging/default.py:19-33: `log_init` records `estimator.get_params()`. -/
def recordParams (T : Name → ClassInfo A) (limit e : Nat) : CM A (Record A) := fun h => (h, .ok (deepParams T h limit (.ref e)))

/-- suprb/suprb.py:122-215 `fit` as `fitObjects`, with the record made at suprb/suprb.py:183. An exception of the training does not remove the record. -/
def fitLogged (T : Name → ClassInfo A) (limit e : Nat) (dflt : Root → CObj A) (b : A) (start : List (Name × A)) (training : List (Write A)) : CM A (Record A × Except PyErr Unit) :=
  (CM.forAll (fun q : Name × A => (Write.own q.1 q.2).run e ⟨0, 0, 0, 0⟩) start).bind fun _ =>
    (setup T limit e dflt b).bind fun c => (recordParams T limit e).bind fun R => fun h =>
      let r := CM.forAll (Write.run e c) training h
      (r.1, .ok (R, r.2))

end Comp

end Suprb
