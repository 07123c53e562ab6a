import Verif.Model.Sas
import Verif.Model.Aco
import Verif.Model.Swarm

/-!
# Number of evaluations

The most expensive part of a solution composition is `Solution.fit`; the programs of `Verif.Model.Prog` show when it is called. Here the calls are counted, and the genetic algorithm
(which is modelled without programs in `Verif.Model.Composition`) is given as a program as well.
-/

set_option autoImplicit false

namespace Suprb

variable {K : Type} [Field K] [LinearOrder K]

/-- Number of calls of `Solution.fit` (suprb/solution/base.py:54-61) of an execution, up to its end or the first exception. -/
def Prog.evals {α : Type} (ev : Eval K) : Prog K α → Nat
  | .ret _ => 0
  | .err _ => 0
  | .eval g k =>
    match ev g with
    | .error _ => 1
    | .ok s => 1 + evals ev (k s)

/-- suprb/optimizer/solution/ga/base.py:72-107: one generation as a program (compare `gaStep`). -/
def gaStepProg (cfg : GACfg K) (pop : List (Indiv K)) (dr : GADraw K) : Prog K (List (Indiv K)) := do
  let _ ← Prog.lift (if allFitted pop then .ok () else .error .attributeError)
  let parents ← Prog.lift (dr.sel.run pop)
  let children ← Prog.lift (gaCross cfg.crossRate dr.cross (pairs parents))
  let children' ← Prog.lift (gaOdd cfg.populationSize parents children)
  evaluateAll ((sortedDesc Indiv.fitnessD pop).take cfg.nElitists ++ gaMutate cfg.mutRate dr.flips children')

/-- suprb/optimizer/solution/ga/base.py:66-107 `_optimize` as a program (compare `gaOptimize`). -/
def gaProg (cfg : GACfg K) (draws : List (GADraw K)) (pop : List (Indiv K)) : Prog K (List (Indiv K)) := do
  let pop ← evaluateAll pop
  Prog.forEach (gaStepProg cfg) draws pop

end Suprb
