import Verif.Py
import Verif.Model.Matching
import Mathlib.Analysis.SpecialFunctions.Log.Basic

/-!
# Model of `suprb/fitness.py`, `suprb/solution/fitness.py`, `suprb/rule/fitness.py`

Over the real numbers. Where numpy would produce NaN or infinity by a division by zero the result is `none`; where Python raises
`ZeroDivisionError` it is that error.
-/

set_option autoImplicit false

namespace Suprb

open Spec

/-- suprb/fitness.py:15-21 `pseudo_accuracy`. -/
noncomputable def pseudoAccuracy (error : ℝ) (beta : ℝ := 2) : Except PyErr ℝ :=
  if beta > 0 then .ok (Real.exp (-beta * error)) else .error .assertionError

/-- suprb/fitness.py:24-31 `emary`. -/
noncomputable def emary (alpha x1 x2 : ℝ) : Option ℝ := some (alpha * x1 + (1 - alpha) * x2)

/-- suprb/fitness.py:34-42 `wu`; `none` if the denominator is zero. -/
noncomputable def wu (alpha x1 x2 : ℝ) : Option ℝ :=
  if alpha ^ 2 * x1 + x2 = 0 then none else some (((1 + alpha ^ 2) * x1 * x2) / (alpha ^ 2 * x1 + x2))

/-- The two combination functions. (suprb/fitness.py:24-42) -/
inductive Combine | emary | wu
  deriving DecidableEq

/-- `fitness_func_` (suprb/solution/fitness.py:50, 62, suprb/rule/fitness.py:54, 66). -/
noncomputable def Combine.apply (f : Combine) (alpha x1 x2 : ℝ) : Option ℝ :=
  match f with
  | .emary => Suprb.emary alpha x1 x2
  | .wu => Suprb.wu alpha x1 x2

/-- suprb/solution/fitness.py:18-19 `c_norm`; both arguments are Python integers. -/
noncomputable def cNorm (complexity N : Nat) : Except PyErr ℝ :=
  if N = 0 then .error .zeroDivisionError else .ok (1 - (complexity : ℝ) / (N : ℝ))

/-- suprb/solution/fitness.py:30-38 `ComplexitySolutionFitness.__call__`, for `ComplexityEmary` (41-50) and `ComplexityWu` (53-62);
`none` is NaN. -/
noncomputable def complexityFitness (f : Combine) (alpha : ℝ) (N : Nat) (error : ℝ) (complexity : Nat) :
    Except PyErr (Option ℝ) := do
  let x1 ← pseudoAccuracy error
  let x2 ← cNorm complexity N
  pure ((f.apply alpha x1 x2).map (· * 100))

/-- suprb/solution/fitness.py:10-15 `PseudoBIC.__call__`; for an empty genome `log 0 = -inf` is multiplied by zero, which is NaN. Errors are at least `1e-4` (suprb/solution/base.py:56), so the logarithm of the
error is a number. -/
noncomputable def pseudoBIC (error : ℝ) (inputSize complexity : Nat) : Option ℝ :=
  if inputSize = 0 then none
  else some (-((inputSize : ℝ) * Real.log error + (complexity : ℝ) * Real.log (inputSize : ℝ)))

/-- suprb/rule/fitness.py:10-19 `PseudoAccuracy.__call__`. -/
noncomputable def pseudoAccuracyFitness (error : ℝ) : Except PyErr ℝ := do
  let a ← pseudoAccuracy error
  pure (a * 100)

/-- suprb/rule/fitness.py:31-32: volume of the input space. -/
noncomputable def inputSpaceVolume {d : Nat} (sp : Pairs ℝ d) : ℝ := ∏ i, ((sp i).2 - (sp i).1)

/-- suprb/rule/fitness.py:30-42 `VolumeRuleFitness.__call__`, for `VolumeEmary` (45-54) and `VolumeWu` (57-66);
`none` is NaN or infinity. -/
noncomputable def volumeFitness {d : Nat} (f : Combine) (alpha : ℝ) (k : Kind) (bounds sp : Pairs ℝ d) (error : ℝ) :
    Except PyErr (Option ℝ) :=
  if inputSpaceVolume sp = 0 then .ok none
  else do
    let x1 ← pseudoAccuracy error
    pure ((f.apply alpha x1 (k.volume bounds / inputSpaceVolume sp)).map (· * 100))

end Suprb
