import Verif.Model.ES

/-!
# The warnings of the evolution strategy's constructor
-/

set_option autoImplicit false

namespace Suprb

/-- The warnings of the constructor: "Delay too low! Volume of rules will not increase! A delay of one does not allow mutation to happen" (suprb/optimizer/rule/es/es.py:82-84) and "',' operator and HalfnormIncrease mutation lead to collapsing
populations" (suprb/optimizer/rule/es/es.py:89). -/
inductive ESWarning
  | delayTooLow
  | collapsing
  deriving DecidableEq, Repr

/-- suprb/optimizer/rule/es/es.py:81-89: the checks of `ES1xLambda.__init__`, the warnings that were given and the exception, if any. (`delay` is a natural number here; `deque` rejects negative ones when rules are generated.) -/
def esInit (operator : ESOperator) (delay nIter : Nat) (mutation : Mutation) : List ESWarning × Option PyErr :=
  let low := if delay < 2 then [ESWarning.delayTooLow] else []
  if operator = .amp ∧ ¬ delay < nIter then (low, some .assertionError)
  else (low ++ (if operator = .comma ∧ mutation = .halfnormIncrease then [.collapsing] else []), none)

variable {R Z S F : Type} [LE F] [DecidableLE F]

/-- suprb/optimizer/rule/es/es.py:108-122: whether the generation started from `elitist` gives the warning "No valid children were generated during this iteration." -/
def esGenWarns (P : ESParams R Z S F) (zs : List Z) (elitist : R) : Bool :=
  match zs.mapM (P.child elitist) with
  | .error _ => false
  | .ok children => (children.filter P.valid).isEmpty

/-- suprb/optimizer/rule/es/es.py:104-137: the main loop as `esLoop`, with one entry for every generation that was started: whether it gave the warning about missing valid children. -/
def esLoopWarned (P : ESParams R Z S F) : List (List Z × S) → R → List R → List Bool × Except PyErr R
  | [], elitist, _ => ([], .ok elitist)
  | (zs, s) :: gs, elitist, w =>
    match esGen P zs s elitist w with
    | .error e => ([esGenWarns P zs elitist], .error e)
    | .ok (.stop r) => ([esGenWarns P zs elitist], .ok r)
    | .ok (.next e w) =>
      let rest := esLoopWarned P gs e w
      (esGenWarns P zs elitist :: rest.1, rest.2)

end Suprb
