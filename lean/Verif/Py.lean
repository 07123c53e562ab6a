import Mathlib.Data.List.Sort

/-!
# Python run-time basics

Exceptions as values and the few list primitives of Python / numpy that the code uses everywhere.
-/

set_option autoImplicit false

namespace Suprb

/-- The exception classes that occur in the modelled code. -/
inductive PyErr
  | valueError | typeError | indexError | attributeError | assertionError | keyError
  | zeroDivisionError | importError | notImplemented | recursionError | runtimeError
  deriving DecidableEq, Repr

/-- `list(itertools.compress(data, selectors))` and boolean-mask indexing `data[mask]`
(suprb/solution/base.py:79, suprb/rule/base.py:77). Stops at the shorter input like `compress`. -/
def compress {α : Type} : List α → List Bool → List α
  | a :: as, b :: bs => if b then a :: compress as bs else compress as bs
  | _, _ => []

/-- `max(iterable, key=key)`: the first element with maximal key; `none` is the `ValueError` on empty input. -/
def pyMax {α F : Type} [LT F] [DecidableLT F] (key : α → F) : List α → Option α
  | [] => none
  | a :: as => some (as.foldl (fun best x => if key best < key x then x else best) a)

/-- `sorted(l, key=key, reverse=True)`: stable, best first (the stable sorting of a list is unique; insertion sort computes it). -/
def sortedDesc {α F : Type} [LE F] [DecidableLE F] (key : α → F) (l : List α) : List α :=
  l.insertionSort (fun a b => key b ≤ key a)

/-- `sorted(l, key=key)`: stable, worst first. -/
def sortedAsc {α F : Type} [LE F] [DecidableLE F] (key : α → F) (l : List α) : List α :=
  l.insertionSort (fun a b => key a ≤ key b)

/-- `l[-n:]` for a non-negative integer `n`; note that `-0 = 0`, so `l[-0:]` is the whole list. -/
def lastSlice {α : Type} (n : Nat) (l : List α) : List α :=
  if n = 0 then l else l.drop (l.length - n)

end Suprb
