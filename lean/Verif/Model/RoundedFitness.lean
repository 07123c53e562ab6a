import Verif.Model.Rounded
import Verif.Model.Fitness

/-!
# Fitness functions in floating-point arithmetic

`suprb/fitness.py`, `suprb/solution/fitness.py` and `suprb/rule/fitness.py` once more, with every result of `+`, `-`, `*`, `/` and `**` rounded.
The pseudo-accuracy `np.exp(-2 * error)` is taken as a given number: how `np.exp` rounds is not specified.
-/

set_option autoImplicit false

namespace Suprb

variable {K : Type} [Field K] [LinearOrder K]

namespace Rounding

variable (R : Rounding K)

/-- suprb/fitness.py:24-31 `emary` with rounded results. -/
def emary (alpha x1 x2 : K) : Option K := some (R.rnd (R.rnd (alpha * x1) + R.rnd (R.rnd (1 - alpha) * x2)))

/-- suprb/fitness.py:34-42 `wu` with rounded results; `none` if the denominator is zero. -/
def wu (alpha x1 x2 : K) : Option K :=
  if R.rnd (R.rnd (R.rnd (alpha ^ 2) * x1) + x2) = 0 then none
  else some (R.rnd (R.rnd (R.rnd (R.rnd (1 + R.rnd (alpha ^ 2)) * x1) * x2) / R.rnd (R.rnd (R.rnd (alpha ^ 2) * x1) + x2)))

/-- `fitness_func_` (suprb/solution/fitness.py:50, 62, suprb/rule/fitness.py:54, 66) with rounded results. -/
def combine (f : Combine) (alpha x1 x2 : K) : Option K :=
  match f with
  | .emary => R.emary alpha x1 x2
  | .wu => R.wu alpha x1 x2

/-- suprb/solution/fitness.py:18-19 `c_norm` with rounded results. -/
def cNorm (complexity N : Nat) : Except PyErr K :=
  if N = 0 then .error .zeroDivisionError else .ok (R.rnd (1 - R.rnd ((complexity : K) / (N : K))))

/-- suprb/solution/fitness.py:30-38 `ComplexitySolutionFitness.__call__` with rounded results, given the pseudo-accuracy `x1`. -/
def complexityFitness (f : Combine) (alpha : K) (N : Nat) (x1 : K) (complexity : Nat) : Except PyErr (Option K) := do
  let x2 ← R.cNorm complexity N
  pure ((R.combine f alpha x1 x2).map fun v => R.rnd (v * 100))

/-- suprb/rule/fitness.py:30-42 `VolumeRuleFitness.__call__` with rounded results, given the pseudo-accuracy `x1`, the volume of the rule
and the volume of the input space; `none` is NaN or an infinity. -/
def volumeFitness (f : Combine) (alpha x1 volume space : K) : Option K :=
  if space = 0 then none else (R.combine f alpha x1 (R.rnd (volume / space))).map fun v => R.rnd (v * 100)

/-- suprb/rule/fitness.py:16-19 `PseudoAccuracy.__call__` with a rounded result, given the pseudo-accuracy. -/
def accuracyFitness (x1 : K) : K := R.rnd (x1 * 100)

end Rounding

end Suprb
