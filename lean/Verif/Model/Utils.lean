import Verif.Spec
import Verif.Py

/-!
# suprb/utils.py
-/

set_option autoImplicit false

namespace Suprb

open Spec

/-- A Python iterable of leaves (non-iterables, strings, bytes) and further iterables: the remaining elements after a leaf or after an inner iterable. Only finite
iterables are modelled. (suprb/utils.py:45-54) -/
inductive Forest (α : Type)
  | nil
  | leaf (a : α) (rest : Forest α)
  | node (inner rest : Forest α)

/-- suprb/utils.py:45-54 `flatten`, the sequence of values the generator yields. -/
def flatten {α : Type} : Forest α → List α
  | .nil => []
  | .leaf a rest => a :: flatten rest
  | .node inner rest => flatten inner ++ flatten rest

variable {K : Type} [LinearOrder K] {d : Nat}

/-- suprb/utils.py:41-42 `estimate_bounds`: minimum and maximum per feature; `np.min` of no samples raises ValueError. -/
def estimateBounds : List (Point K d) → Except PyErr (Pairs K d)
  | [] => .error .valueError
  | x :: xs => .ok fun i => ((xs.map fun z => z i).foldl min (x i), (xs.map fun z => z i).foldl max (x i))

end Suprb
