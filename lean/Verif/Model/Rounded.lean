import Verif.Model.Operators

/-!
# Ordered rules in floating-point arithmetic

The operations on the bounds of ordered rules once more, with every result of `+`, `-` and `/` rounded as numpy does.
`Rounding` says what is assumed of the rounding: it is monotone, leaves rounded numbers alone and rounds 0 to 0 (IEEE 754
requires this of each of its rounding modes).  Simplification: no overflow, no NaN.  Comparisons, `np.sort`, `np.clip` and copies
do not round, so `OrderedBound.call`, `OrderedBound.clip`, `sortRows`, `meanInit` and `uniformCrossover` are used as they are.
-/

set_option autoImplicit false

namespace Suprb

open _root_.Spec (Pairs Point)

variable {K : Type} [Field K] [LinearOrder K] {d : Nat}

/-- A rounding of exact results to representable numbers (numpy's floating-point arithmetic, e.g.
suprb/rule/matching.py:74-78; not a definition of the repository). -/
structure Rounding (K : Type) [Field K] [LinearOrder K] where
  rnd : K → K
  mono : ∀ x y, x ≤ y → rnd x ≤ rnd y
  idem : ∀ x, rnd (rnd x) = rnd x
  zero : rnd 0 = 0

namespace Rounding

variable (R : Rounding K)

/-- The number is representable, like the entries of every array (e.g. suprb/rule/matching.py:54-55). -/
def Rep (x : K) : Prop := R.rnd x = x

/-- suprb/rule/matching.py:73-78 `OrderedBound.min_range` with rounded results. -/
def minRange (r : K) (b : Pairs K d) : Pairs K d :=
  if r > 0 then
    fun i => if R.rnd ((b i).2 - (b i).1) < r then
      (R.rnd ((b i).1 - R.rnd (r / 2)), R.rnd ((b i).2 + R.rnd (r / 2))) else b i
  else b

/-- suprb/optimizer/rule/constraint.py:23-35 `CombinedConstraint.__call__` for ordered rules, with rounded results. -/
def constrain (r : K) (fb b : Pairs K d) : Pairs K d :=
  OrderedBound.clip fb (R.minRange r b)

/-- suprb/rule/initialization.py:166-195 `HalfnormInit.ordered_bound` with rounded results; `h` are the half-normal draws. -/
def halfnormInit (m : Point K d) (h : Pairs K d) : Pairs K d :=
  fun i => (R.rnd (m i - (h i).1), R.rnd (m i + (h i).2))

/-- suprb/optimizer/rule/mutation.py:72-83, 95-104, 119-123, 139-149, 164-168: the methods `ordered_bound` of the mutations, with
rounded results. `np.mean` of the two numbers of a row rounds their sum and its half. -/
def mutate (m : Mutation) (z b : Pairs K d) : Pairs K d :=
  match m with
  | .normal => sortRows fun i => (R.rnd ((b i).1 + (z i).1), R.rnd ((b i).2 + (z i).2))
  | .uniform => sortRows fun i => (R.rnd ((b i).1 + (z i).1), R.rnd ((b i).2 + (z i).2))
  | .halfnorm => sortRows fun i =>
      (R.rnd (R.rnd (R.rnd ((b i).1 + (b i).2) / 2) - (z i).1), R.rnd (R.rnd (R.rnd ((b i).1 + (b i).2) / 2) + (z i).2))
  | .halfnormIncrease => sortRows fun i => (R.rnd ((b i).1 - (z i).1), R.rnd ((b i).2 + (z i).2))
  | .uniformIncrease => sortRows fun i => (R.rnd ((b i).1 - (z i).1), R.rnd ((b i).2 + (z i).2))

/-- `self.constraint(self.mutation(rule, ...))` (suprb/optimizer/rule/es/es.py:109, suprb/optimizer/rule/ns/ns.py:161-172),
with rounded results. -/
def childBounds (m : Mutation) (r : K) (fb z b : Pairs K d) : Pairs K d :=
  R.constrain r fb (R.mutate m z b)

end Rounding

end Suprb
